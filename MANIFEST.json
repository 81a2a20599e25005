{
 "claims": [
  {
   "property": "C01",
   "status": "proved",
   "theorems": [
    "Geouned.C01_append_and",
    "Geouned.C01_append_or",
    "Geouned.C01_append_bool_and",
    "Geouned.C01_append_bool_or",
    "Geouned.C01_append_bool_absorbing",
    "Geouned.C01_append_bool_violated"
   ],
   "note": "Every list expression and every item list. The excluded case (self already a bare boolean) is shown to raise in C01_append_bool_violated."
  },
  {
   "property": "C02",
   "status": "proved",
   "theorems": [
    "Geouned.C02_clean",
    "Geouned.C02_clean_self"
   ],
   "note": ""
  },
  {
   "property": "C03",
   "status": "proved",
   "theorems": [
    "Geouned.C03_group_single"
   ],
   "note": ""
  },
  {
   "property": "C04",
   "status": "proved",
   "theorems": [
    "Geouned.C04_check",
    "Geouned.C04_check_returns",
    "Geouned.C04_check_flat"
   ],
   "note": ""
  },
  {
   "property": "C05",
   "status": "proved",
   "theorems": [
    "Geouned.C05_substitute_bool",
    "Geouned.C05_substitute_bool_any"
   ],
   "note": ""
  },
  {
   "property": "C06",
   "status": "proved",
   "theorems": [
    "Geouned.C06_substitute_removes"
   ],
   "note": ""
  },
  {
   "property": "C07",
   "status": "proved",
   "theorems": [
    "Geouned.C07_substitute_surface"
   ],
   "note": ""
  },
  {
   "property": "C08",
   "status": "proved",
   "theorems": [
    "Geouned.C08_join_operators"
   ],
   "note": ""
  },
  {
   "property": "C09",
   "status": "proved",
   "theorems": [
    "Geouned.C09_get_complementary",
    "Geouned.C09_complement_of_bool_raises"
   ],
   "note": "Expressions built of surfaces; the excluded case (a bare boolean) is shown to raise."
  },
  {
   "property": "C10",
   "status": "proved",
   "theorems": [
    "Geouned.C10_evaluate",
    "Geouned.C10_evaluate_returns"
   ],
   "note": ""
  },
  {
   "property": "C11",
   "status": "partial",
   "theorems": [
    "Geouned.C11_factorize_violated",
    "Geouned.C11_factorize_partial",
    "Geouned.C11_factorize_flat_partial"
   ],
   "note": "False of the code in full (witness theorem). Proved for every execution in which update() overwrites no sibling, and for flat expressions without restriction."
  },
  {
   "property": "C12",
   "status": "partial",
   "theorems": [
    "Geouned.C12_simplify_violated",
    "Geouned.C12_simplify_partial",
    "Geouned.C12_simplify_mixed_raises"
   ],
   "note": "False of the code in full (witness: AND[OR[1 2 -2] OR[3 4]] simplifies to True; mixed-level expressions raise). Proved for every execution in which update() overwrites no sibling, all iteration orders and recursion limits."
  },
  {
   "property": "C13",
   "status": "partial",
   "theorems": [
    "Geouned.C13_simplify_violated",
    "Geouned.C13_simplify_partial",
    "Geouned.C13_simplify_table_partial"
   ],
   "note": "Same defect as C12. Proved for every sound table in every execution in which update() overwrites no sibling. Also stated for the tables of the code themselves (C13_simplify_table_partial; tables without an entry saying two surfaces are equal/opposite)."
  },
  {
   "property": "C14",
   "status": "proved",
   "theorems": [
    "Geouned.C14_surfaces_exact",
    "Geouned.C14_support"
   ],
   "note": ""
  },
  {
   "property": "C15",
   "status": "proved",
   "theorems": [
    "Geouned.C15_insert_and",
    "Geouned.C15_insert_or"
   ],
   "note": ""
  },
  {
   "property": "C16",
   "status": "proved",
   "theorems": [
    "Geouned.Text.C16_parse",
    "Geouned.Text.C16_unambiguous"
   ],
   "note": "Token level: every well-formed text is accepted, at any nesting, for every iteration order of Python sets; the grammar is proved unambiguous. Character-level tokenising is not in this theorem."
  },
  {
   "property": "C17",
   "status": "partial",
   "theorems": [
    "Geouned.Text.C17_chars_unambiguous",
    "Geouned.Text.C17_number",
    "Geouned.Text.C17_chars_write",
    "Geouned.Text.C17_cell_card",
    "Geouned.Text.C17_write_mcnp",
    "Geouned.Text.C17_cell_text",
    "Geouned.Text.C17_write_xml",
    "Geouned.Text.C17_write_py",
    "Geouned.Text.C17_round_trip",
    "Geouned.Text.C17_bare_boolean_violated",
    "Geouned.Text.C17_bare_boolean_raises",
    "Geouned.Text.C17_inner_boolean_raises",
    "Geouned.Text.C17_definition"
   ],
   "note": "MCNP, PHITS, Serpent, OpenMC XML and OpenMC Python, all trees without boolean constants; round trip through BoolSequence(string). For MCNP, PHITS and Serpent also on the characters of the wrapped lines (C17_cell_card), and with conditions on the size of the numbers and the depth of the tree only (C17_definition). Violated for a definition that is (or contains) a boolean constant: the writers raise TypeError."
  },
  {
   "property": "C18",
   "status": "proved",
   "theorems": [
    "Geouned.Text.C18_remove_redundant",
    "Geouned.Text.C18_iff",
    "Geouned.Text.C18_symbols"
   ],
   "note": "Every well-formed text; also only parentheses are touched."
  },
  {
   "property": "C19",
   "status": "proved",
   "theorems": [
    "Geouned.C19_transpose",
    "Geouned.C19_transpose_diag_violated"
   ],
   "note": "Pair entries. For diagonal entries the code returns a bare integer (shown); the code never transposes those (fill_missing_elements skips the diagonal)."
  },
  {
   "property": "C20",
   "status": "partial",
   "theorems": [
    "Geouned.C20_constraint_set_violated",
    "Geouned.C20_constraint_set_partial",
    "Geouned.C20_constraint_set_returns",
    "Geouned.C20_entry_complete_partial"
   ],
   "note": "False of the code for entries (0,1,0,1) and (1,0,1,0) (witness). Proved for all other tables, with totality after filling."
  },
  {
   "property": "C21",
   "status": "proved",
   "theorems": [
    "Geouned.C21_combine_diag",
    "Geouned.C21_fill_missing"
   ],
   "note": ""
  },
  {
   "property": "C22",
   "status": "partial",
   "theorems": [
    "Geouned.C22_solid_in_box_violated",
    "Geouned.C22_solid_in_box_partial",
    "Geouned.C22_solid_in_box_diag",
    "Geouned.C22_solid_in_box_diag_returns"
   ],
   "note": "False in matrix mode for tables with such entries (consequence of C20); proved for all others and, in diagonal mode, for every table."
  },
  {
   "property": "C23",
   "status": "partial",
   "theorems": [
    "Geouned.C23_remove_extra_violated",
    "Geouned.C23_remove_extra_partial",
    "Geouned.C23_remove_extra_corrected_partial"
   ],
   "note": "False of the code when check() finds a sub-cell empty or full: the result is negated (witness). Proved otherwise; and for the corrected test without restriction."
  },
  {
   "property": "C24",
   "status": "proved",
   "theorems": [
    "Geouned.Box.C24_divide_box_covers",
    "Geouned.Box.C24_divide_box_disjoint",
    "Geouned.Box.C24_divide_box_centres"
   ],
   "note": ""
  },
  {
   "property": "C25",
   "status": "proved",
   "theorems": [
    "Geouned.Box.C25_split_covers",
    "Geouned.Box.C25_split_none",
    "Geouned.Box.C25_split_depth"
   ],
   "note": ""
  },
  {
   "property": "C26",
   "status": "partial",
   "theorems": [
    "Geouned.C26_void_cell_lost_violated",
    "Geouned.C26_void_cell_raises_violated",
    "Geouned.C26_void_cell_none_violated",
    "Geouned.C26_void_cell_partial",
    "Geouned.C26_void_enclosure_violated"
   ],
   "note": "False of the code (witnesses: region lost for a single solid in mode diag; the whole void cell lost when check() decides a sub-cell; AttributeError; enclosure cells reaching outside in mode full). Proved for every execution in which none of the three known defects fires, all modes, with and without piece enclosure."
  },
  {
   "property": "C27",
   "status": "partial",
   "theorems": [
    "Geouned.Void.C27_void_loop_violated",
    "Geouned.Void.C27_void_loop_partial"
   ],
   "note": "False of the code (50-round cap, witness). Proved for every box whose splits cannot nest 50 deep."
  },
  {
   "property": "C28",
   "status": "partial",
   "theorems": [
    "Geouned.C28_no_overlap_violated",
    "Geouned.C28_no_overlap_partial"
   ],
   "note": "False of the code (TypeError, witness). Proved for every call that returns without the known defects of check/simplify."
  },
  {
   "property": "C29",
   "status": "proved",
   "theorems": [
    "Geouned.Reg.C29_numbers_consecutive",
    "Geouned.Reg.C29_numbers_distinct",
    "Geouned.Reg.C29_add"
   ],
   "note": ""
  },
  {
   "property": "C30",
   "status": "partial",
   "theorems": [
    "Geouned.Reg.C30_get_surface_partial",
    "Geouned.Reg.C30_get_surface_returns_partial",
    "Geouned.Reg.C30_get_surface_after_add_partial",
    "Geouned.Reg.C30_get_surface_violated"
   ],
   "note": "Proved for every history without deletion of the last entry; after such a deletion get_surface raises (witness)."
  },
  {
   "property": "C31",
   "status": "proved",
   "theorems": [
    "Geouned.Reg.C31_sorted_surfaces"
   ],
   "note": ""
  },
  {
   "property": "C32",
   "status": "partial",
   "theorems": [
    "Geouned.Labels.C32_plain",
    "Geouned.Labels.C32_sorted_partial",
    "Geouned.Labels.C32_envelope_violated",
    "Geouned.Labels.C32_duplicate_enclosure_violated",
    "Geouned.Labels.C32_null_solid_violated"
   ],
   "note": "False of the code when sorting with an envelope (KeyError), with equal enclosure numbers from two files (cells written twice), or when a comment names a null solid (witnesses). Proved for all other inputs, both modes."
  },
  {
   "property": "C33",
   "status": "partial",
   "theorems": [
    "Geouned.Signs.C33_no_three_points_partial",
    "Geouned.Signs.C33_first_three_points_partial",
    "Geouned.Signs.C33_second_export_violated",
    "Geouned.Signs.C33_openmc_after_mcnp_violated",
    "Geouned.Signs.C33_aligned_three_points_violated"
   ],
   "note": "Axes compared exactly. Proved: without three-point planes the sign treatment of simplify_planes keeps every cell's meaning in every export; with them the first export is right when no three-point plane is aligned with an axis. Violated: three-point planes are toggled again at each writer (a second export, or OpenMC after MCNP, gets the opposite cells), and aligned three-point planes below the origin are wrong even in the first MCNP file."
  },
  {
   "property": "C34",
   "status": "proved",
   "theorems": [
    "Geouned.Wrap.C34_wrap_room",
    "Geouned.Wrap.C34_wrap",
    "Geouned.Wrap.C34_normalise",
    "Geouned.Wrap.C34_too_long_never_ends",
    "Geouned.Wrap.C34_card"
   ],
   "note": "Character level: wrap_line (tidying substitutions and cutting loop with Python's negative indices) and CardLine; without the condition that words fit the loop never ends (C34_too_long_never_ends)."
  },
  {
   "property": "C35",
   "status": "proved",
   "theorems": [
    "Geouned.Export.C35_reject",
    "Geouned.Export.C35_files"
   ],
   "note": ""
  },
  {
   "property": "C36",
   "status": "proved",
   "theorems": [
    "Geouned.Geom.C36_q_form_cyl",
    "Geouned.Geom.C36_parallel_to_X_raises"
   ],
   "note": ""
  },
  {
   "property": "C37",
   "status": "proved",
   "theorems": [
    "Geouned.Geom.C37_q_form_cone"
   ],
   "note": ""
  },
  {
   "property": "C38",
   "status": "proved",
   "theorems": [
    "Geouned.Geom.C38_convention_unique",
    "Geouned.Geom.C38_points_to_coeffs",
    "Geouned.Geom.C38_collinear_raises"
   ],
   "note": ""
  },
  {
   "property": "C39",
   "status": "partial",
   "theorems": [
    "Geouned.Geom.C39_sphere_cone_torus_partial",
    "Geouned.Geom.C39_plane_partial",
    "Geouned.Geom.C39_cylinder_partial",
    "Geouned.Geom.C39_plane_violated",
    "Geouned.Geom.C39_cylinder_violated",
    "Geouned.Geom.C39_violated"
   ],
   "note": "False of the code for planes with relative tolerances and for cylinders with axes only nearly parallel (witnesses). Proved for spheres, cones, tori (all tolerances), planes with absolute tolerances, cylinders with equal/opposite axes."
  },
  {
   "property": "C40",
   "status": "proved",
   "theorems": [
    "Geouned.Density.C40_density",
    "Geouned.Density.C40_never_set",
    "Geouned.Density.C40_void_cells",
    "Geouned.Density.C40_stale_attribute"
   ],
   "note": "The Density attribute, when set before, is overwritten or kept exactly as the code does (C40_stale_attribute)."
  },
  {
   "property": "C41",
   "status": "proved",
   "theorems": [
    "Geouned.Encl.C41_depth_unique",
    "Geouned.Encl.C41_accept",
    "Geouned.Encl.C41_levels",
    "Geouned.Encl.C41_order",
    "Geouned.Encl.C41_needs_check"
   ],
   "note": ""
  },
  {
   "property": "C42",
   "status": "proved",
   "theorems": [
    "Geouned.Planes.C42_permutation",
    "Geouned.Planes.C42_groups"
   ],
   "note": ""
  },
  {
   "property": "C43",
   "status": "proved",
   "theorems": [
    "Geouned.Box.C43_myBox_history",
    "Geouned.Box.C43_add",
    "Geouned.Box.C43_mult",
    "Geouned.Box.C43_build_box_depth"
   ],
   "note": ""
  },
  {
   "property": "C44",
   "status": "partial",
   "theorems": [
    "Geouned.Range.C44_accept",
    "Geouned.Range.C44_range_partial",
    "Geouned.Range.C44_violated"
   ],
   "note": "False for strings with characters that str.isdigit accepts and int() rejects (e.g. superscript two): ValueError. Proved for all other strings."
  },
  {
   "property": "C45",
   "status": "partial",
   "theorems": [
    "Geouned.C45_pair_entry_sound",
    "Geouned.C45_pair_entry_returns",
    "Geouned.C45_pair_entry_stale_violated"
   ],
   "note": "Proved when each side has pieces; with an empty side the value left from the previous surface is used (shown)."
  },
  {
   "property": "C46",
   "status": "partial",
   "theorems": [
    "Geouned.Geom.C46_same_plane",
    "Geouned.Geom.C46_same_cylinder",
    "Geouned.Geom.C46_same_sphere",
    "Geouned.Geom.C46_same_torus",
    "Geouned.Geom.C46_same_cone_partial",
    "Geouned.Geom.C46_same_cone_violated"
   ],
   "note": "Proved for planes, cylinders, spheres, tori, and for cones as double cones; false for the one-sheet cones which the code writes (opposite axes are identified)."
  },
  {
   "property": "C47",
   "status": "partial",
   "theorems": [
    "Geouned.Geom.C47_surface_cards_partial",
    "Geouned.Geom.C47_oblique_torus_violated"
   ],
   "note": "False of the code for tori with oblique axes (an empty card is written); proved for all other surfaces."
  },
  {
   "property": "C48",
   "status": "partial",
   "theorems": [
    "Geouned.Geom.C48_xml_cards_partial",
    "Geouned.Geom.C48_py_cards_partial",
    "Geouned.Geom.C48_oblique_torus_violated",
    "Geouned.Geom.C48_py_torus_violated",
    "Geouned.Geom.C48_py_violated"
   ],
   "note": "XML: false for oblique tori (type None), proved for the rest. Python: false for every torus (keywords r, r1, r2 do not exist), proved for the rest."
  },
  {
   "property": "C49",
   "status": "partial",
   "theorems": [
    "Geouned.Geom.C49_serpent_cards_partial",
    "Geouned.Geom.C49_cone_violated",
    "Geouned.Geom.C49_cylinder_violated",
    "Geouned.Geom.C49_violated"
   ],
   "note": "False of the code for all cones, for cylinders along Z and oblique cylinders (unreadable cards); proved for planes, cylinders along X and Y, spheres, aligned tori."
  },
  {
   "property": "C50",
   "status": "proved",
   "theorems": [
    "Geouned.Void.C50_sphere_holds_box",
    "Geouned.Void.C50_graveyard"
   ],
   "note": "Exact real arithmetic; registered planes are exactly coincident up to orientation."
  },
  {
   "property": "C51",
   "status": "proved",
   "theorems": [
    "Geouned.Void.C51_box_definition"
   ],
   "note": "Exact real arithmetic; registered planes are exactly coincident up to orientation."
  },
  {
   "property": "C52",
   "status": "partial",
   "theorems": [
    "Geouned.Void.C52_void_of_solids_partial",
    "Geouned.Void.C52_void_fills_universe_partial",
    "Geouned.Whole.C52_violated"
   ],
   "note": "Composition of C25, C26, C27, C51. C52_violated: a universe box of 2^60 minimum sizes (C27). Partial: universe box without piece enclosure, executions in which C26 and C27 hold, CAD answers (tables, lists of solids of a box) right at the point."
  },
  {
   "property": "C53",
   "status": "partial",
   "theorems": [
    "Geouned.Encl.C53_violated",
    "Geouned.Encl.C53_never_rejects_violated"
   ],
   "note": "False of the code: both checks are dead (witness theorems)."
  },
  {
   "property": "C54",
   "status": "partial",
   "theorems": [
    "Geouned.Labels.C54_plain_partial",
    "Geouned.Labels.C54_violated"
   ],
   "note": "Proved without sorting; false with sorting (identifiers of void cells repeat those of solids, witness)."
  },
  {
   "property": "C55",
   "status": "partial",
   "theorems": [
    "Geouned.Labels.C55_violated",
    "Geouned.Labels.C55_summary_partial"
   ],
   "note": "False of the code (the internal id is printed). Proved when ids and labels coincide."
  },
  {
   "property": "C56",
   "status": "partial",
   "theorems": [
    "Geouned.Conv.C56_solids_from_faces",
    "Geouned.Cones.C56_sheet_geometry",
    "Geouned.Cones.C56_one_sheet_partial",
    "Geouned.Cones.C56_no_overlap_violated"
   ],
   "note": "Proved for cells whose oblique cones are all recorded with their sign (C56_one_sheet_partial); C56_solids_from_faces proves this hypothesis for the solids made from faces, and the written cells hold where the faces agree with one-sheet cones. Violated with forceNoOverlap: the complement of an earlier cell brings a cone that is not recorded for the later cell, which then gets both sheets. Not proved: that the cones of void cells are recorded."
  },
  {
   "property": "C57",
   "status": "partial",
   "theorems": [
    "Geouned.Wrap.C57_trim_partial",
    "Geouned.Wrap.C57_violated",
    "Geouned.Wrap.C57_hangs"
   ],
   "note": "Violated: cut_line loops for ever when the last blank of a long line is beyond the line length. C57_trim_partial: it works when that blank is within and the rest fits."
  },
  {
   "property": "C58",
   "status": "partial",
   "theorems": [
    "Geouned.Alias.C58_change_sign_partial",
    "Geouned.Alias.C58_insert_then_turn_partial",
    "Geouned.Alias.C58_violated"
   ],
   "note": "Heap model (objects with addresses, in-place updates). Proved: insert_in_sequence stores one shared object at every place and computes the meaning of C15; change_surf_sign turns the surface iff every object holding it sits in an odd number of places. Violated: with an even number of places the shared object is toggled an even number of times (C58_violated)."
  },
  {
   "property": "C59",
   "status": "partial",
   "theorems": [
    "Geouned.Void.C59_void_box_violated",
    "Geouned.Void.C59_void_box_partial",
    "Geouned.Void.C59_void_box_returns"
   ],
   "note": "False in full: after forceNoOverlap the definition has no longer one element per CAD solid, remove_extra_comp takes the wrong element (C59_void_box_violated). Proved for every list of cells whose definition has one part per solid, each part inside the box of its solid."
  },
  {
   "property": "C60",
   "status": "proved",
   "theorems": [
    "Geouned.Conv.C60_cell_definition",
    "Geouned.Conv.C60_feeds_void_boxes"
   ],
   "note": "The geometric questions (which registered surface, orientation, additional planes) are inputs of the model. C60_feeds_void_boxes: the result satisfies the hypotheses of C59 and C52."
  },
  {
   "property": "C61",
   "status": "partial",
   "theorems": [
    "Geouned.Encl.C61_embedded_violated",
    "Geouned.Encl.C61_assign_partial"
   ],
   "note": "Full statement C61_statement, refuted by C61_embedded_violated: the answer -2 of check_intersection (enclosure inside the solid) is ignored by assignEnclosure. C61_assign_partial proves it for all hierarchies when -2 is not answered; the universe clause, the converse and ParentEnclosureID without that condition."
  },
  {
   "property": "C62",
   "status": "proved",
   "theorems": [
    "Geouned.Encl.C62_void_numbered"
   ],
   "note": "Proved for all hierarchies, void lists and envelopes; comments of the cells are C54."
  },
  {
   "property": "C63",
   "status": "partial",
   "theorems": [
    "Geouned.Encl.C63_embedded_violated",
    "Geouned.Encl.C63_void_with_enclosures_partial"
   ],
   "note": "Full statement C63_statement, refuted by C63_embedded_violated (same defect as C61). C63_void_with_enclosures_partial: for solids without the answer -2. That each call of get_void_def fills its enclosure is a hypothesis on the calls made (see C26, C27, C52)."
  },
  {
   "property": "C64",
   "status": "partial",
   "theorems": [
    "Geouned.Rev.C64_complementary",
    "Geouned.Rev.C64_remove_hash_partial",
    "Geouned.Rev.C64_transformed_violated",
    "Geouned.Rev.C64_transformed_kept_violated",
    "Geouned.Rev.C64_cycle_raises"
   ],
   "note": "Proved for cards without TRCL/LIKE, any deck without cycles. Violated for transformed cells: `#n` takes the geometry of cell n without its TRCL; a TRCL/LIKE cell keeps its `#`. A cell that mentions itself: RecursionError."
  },
  {
   "property": "C65",
   "status": "partial",
   "theorems": [
    "Geouned.Rev.C65_mcnp",
    "Geouned.Rev.C65_xml_partial",
    "Geouned.Rev.C65_xml_violated",
    "Geouned.Rev.C65_xml_raises_violated",
    "Geouned.Rev.C65_stale_list_violated"
   ],
   "note": "C65_mcnp proves it for MCNP files. For OpenMC files it is violated: the combination include-material/exclude-cell raises AttributeError always; a filter that leaves no cell raises ValueError. `include` without a list keeps the list of an earlier call, or raises TypeError."
  },
  {
   "property": "C66",
   "status": "partial",
   "theorems": [
    "Geouned.Rev.C66_levels",
    "Geouned.Rev.C66_lonely",
    "Geouned.Rev.C66_no_root",
    "Geouned.Rev.C66_subuniverses",
    "Geouned.Rev.C66_selection_partial",
    "Geouned.Rev.C66_xml_partial",
    "Geouned.Rev.C66_deep_violated",
    "Geouned.Rev.C66_xml_violated"
   ],
   "note": "Levels (C66_levels), rejection (C66_lonely, C66_no_root) and nested universes (C66_subuniverses) in full. Choice by depth: when every universe is nested at one level only (C66_selection_partial); refuted otherwise (C66_deep_violated), and for OpenMC files unwanted universes are kept (C66_xml_violated)."
  },
  {
   "property": "C67",
   "status": "partial",
   "theorems": [
    "Geouned.Rev.C67_cells_partial",
    "Geouned.Rev.C67_universe_partial",
    "Geouned.Rev.C67_reuse_violated",
    "Geouned.Rev.C67_no_place_violated",
    "Geouned.Rev.C67_depth_violated",
    "Geouned.Rev.C67_container_violated"
   ],
   "note": "C67_statement is refuted by a universe that fills two cells (its shapes are made in the box of the first). C67_cells_partial/C67_universe_partial: every universe fills one cell, transformations given below a transformation. Further violations: no transformation in a moved universe, universes at several levels, build_container one level too deep. The CAD kernel is a parameter with exact operations (Kernel.Lawful, satisfied by exactKernel)."
  },
  {
   "property": "C68",
   "status": "partial",
   "theorems": [
    "Geouned.Rev.C68_read_partial",
    "Geouned.Rev.C68_violated",
    "Geouned.Rev.C68_universe_violated",
    "Geouned.Rev.C68_filter_violated",
    "Geouned.Rev.C68_zero_violated",
    "Geouned.Rev.C68_fill_violated",
    "Geouned.Rev.C68_order_violated"
   ],
   "note": "C68_statement is refuted by a file with a surface card that is skipped (new numbers start at the number of surfaces and overwrite one). C68_read_partial: all files with ids 1..n for which LIKE names an earlier card or one that is no LIKE card, of the same universe and not filtered out, no entry changed to 0, no # together with TRCL/LIKE, and no FILL transformation beside TRCL; each of these conditions (# : C64) is shown to be needed by its own violated theorem. Surfaces are sets of points; the equations of moved surfaces are not part of C68."
  },
  {
   "property": "C69",
   "status": "partial",
   "theorems": [
    "Geouned.Rev.C69_builds_partial",
    "Geouned.Rev.C69_violated",
    "Geouned.Rev.C69_then_filter_violated",
    "Geouned.Rev.C69_renamed_twice_violated",
    "Geouned.Rev.C69_names_violated",
    "Geouned.Rev.C69_trcl_violated"
   ],
   "note": "Proved when the file has no LIKE and TRCL, surfaces are named 1, 2, ..., and every build has a filter; the others are counterexamples (second build fails with AttributeError or KeyError, or cells get wrong surfaces)."
  },
  {
   "property": "C70",
   "status": "partial",
   "theorems": [
    "Geouned.Rev.C70_container_partial",
    "Geouned.Rev.C70_violated",
    "Geouned.Rev.C70_like_violated",
    "Geouned.Rev.C70_trcl_violated"
   ],
   "note": "Proved for cards without LIKE, TRCL, #; each of these is a counterexample."
  },
  {
   "property": "C71",
   "status": "partial",
   "theorems": [
    "Geouned.RSurf.C71_cards_read_partial",
    "Geouned.RSurf.C71_two_point_cylinder_violated",
    "Geouned.RSurf.C71_violated",
    "Geouned.RSurf.C71_earlier_cylinder_violated",
    "Geouned.RSurf.C71_same_height_violated",
    "Geouned.RSurf.C71_point_on_axis_violated",
    "Geouned.RSurf.C71_trc_apex_violated",
    "Geouned.RSurf.C71_rec_facet_violated"
   ],
   "note": "C71_statement is refuted by cylinders given by two points (exception, or an earlier cylinder moved), two points at one height, a point on the axis, the apex of a TRC, and the prolonged facet of a REC. C71_cards_read_partial: all lists of cards without these, all points off the infinite facets of TRC and REC. Cards SQ and GQ: C74."
  },
  {
   "property": "C72",
   "status": "partial",
   "theorems": [
    "Geouned.RSurf.C72_transformed_cards_partial",
    "Geouned.RSurf.C72_plane_violated",
    "Geouned.RSurf.C72_box_violated",
    "Geouned.RSurf.C72_violated",
    "Geouned.RSurf.C72_copy_partial",
    "Geouned.RSurf.C72_copy_violated"
   ],
   "note": "Refuted for P with a normal that is no unit vector, for BOX/RPP with a displacement, and (TRCL) for the original of a copied REC. C72_transformed_cards_partial: all files without these; C72_copy_partial: the same for TRCL."
  },
  {
   "property": "C73",
   "status": "partial",
   "theorems": [
    "Geouned.RSurf.C73_tr_card_partial",
    "Geouned.RSurf.C73_two_axes_violated",
    "Geouned.RSurf.C73_minus_one_violated",
    "Geouned.RSurf.C73_violated",
    "Geouned.RSurf.C73_inline_partial",
    "Geouned.RSurf.C73_inline_two_axes_violated"
   ],
   "note": "Refuted for two axes given by cosines (TypeError) and for M = -1 (ignored). Proved for all other forms, TR cards and TRCL/FILL."
  },
  {
   "property": "C74",
   "status": "partial",
   "theorems": [
    "Geouned.RSurf.C74_cylinder_partial",
    "Geouned.RSurf.C74_hyperbolic_cylinder_partial",
    "Geouned.RSurf.C74_right_cone_partial",
    "Geouned.RSurf.C74_cone_violated",
    "Geouned.RSurf.C74_sq",
    "Geouned.RSurf.C74_hyperboloid_partial",
    "Geouned.RSurf.C74_hyperboloid_violated",
    "Geouned.RSurf.C74_ellipsoid_violated",
    "Geouned.RSurf.C74_negated_cylinder_violated",
    "Geouned.RSurf.C74_paraboloid_violated",
    "Geouned.RSurf.C74_violated"
   ],
   "note": "Proved for every result allowed by eigh: cylinders circular and elliptic, hyperbolic cylinders with negative constant, cones of 45 degrees, hyperboloids around the origin, and SQ = GQ. False for: every other circular cone (tangent inverted), every hyperboloid with another centre, ellipsoids and spheres (surface_side raises), negated circular cylinders (sides exchanged), paraboloids along x (axis reversed). Elliptic cones, elliptic hyperboloids, paraboloids in other directions and eigenvalues within the tolerances are not treated."
  },
  {
   "property": "C75",
   "status": "partial",
   "theorems": [
    "Geouned.RSurf.C75_surfaces_partial",
    "Geouned.RSurf.C75_cone_violated",
    "Geouned.RSurf.C75_hyperboloid_violated",
    "Geouned.RSurf.C75_narrow_cone_violated",
    "Geouned.RSurf.C75_lost_violated",
    "Geouned.RSurf.C75_scaled_cylinder_violated",
    "Geouned.RSurf.C75_violated"
   ],
   "note": "Proved for files of any length with all types of surfaces, quadrics being cylinders with coefficients 1 (any position and direction) or cones of 45 degrees. False for: other circular cones (inverse tangent), narrow cones (read as cylinders), hyperboloids (read as cones), spheres, ellipsoids and elliptic cylinders (lost), scaled cylinders (moved, for one admissible eigenbasis)."
  },
  {
   "property": "C76",
   "status": "partial",
   "theorems": [
    "Geouned.RSurf.C76_round_trip_partial",
    "Geouned.RSurf.C76_oblique_cone_violated",
    "Geouned.RSurf.C76_violated"
   ],
   "note": "Proved for lists of surfaces of any length, all kinds and positions, in MCNP and XML, as long as cones with an oblique axis have a half angle of 45 degrees. False for every other oblique cone (tangent inverted on reading). Number formatting is not modelled."
  },
  {
   "property": "C77",
   "status": "partial",
   "theorems": [
    "Geouned.Rev.Solid.C77_flat_partial",
    "Geouned.Rev.Solid.C77_nested_partial",
    "Geouned.Rev.Solid.C77_join_violated",
    "Geouned.Rev.Solid.C77_reversed_violated",
    "Geouned.Rev.Solid.C77_violated"
   ],
   "note": "Proved, with any CAD kernel that satisfies the assumptions of `Right` (SolidSpec.lean), for all sequences and unions of sequences, bounded or not (C77_flat_partial), and for every nesting in which no surface of a nested union occurs again in a later element of the same intersection and each intersection starts with a bounded part (C77_nested_partial). False otherwise: after a union the remembered sides are those of only some of its parts (C77_join_violated), and an unbounded part that lies apart from the box of the next element makes the code add the whole region of that element (C77_reversed_violated)."
  },
  {
   "property": "C78",
   "status": "partial",
   "theorems": [
    "Geouned.BB.C78_returns",
    "Geouned.BB.C78_intersection_partial",
    "Geouned.BB.C78_intersection_cut_partial",
    "Geouned.BB.C78_union_partial",
    "Geouned.BB.C78_outside_partial",
    "Geouned.BB.C78_everywhere_partial",
    "Geouned.BB.C78_nowhere_partial",
    "Geouned.BB.C78_unbounded_violated",
    "Geouned.BB.C78_foil_violated",
    "Geouned.BB.C78_violated"
   ],
   "note": "Violated: a foil thinner than 0.1 mm (its corners are merged by remove_close_points, the flat box is dropped and the cell is said to be empty), and a prism with a pointed end that leaves the universe through a face (no corner of the universe is in it, so it is taken to be bounded and cut at its last corner). Proved over any ordered field: the method always returns a box (C78_returns); intersections of half-spaces that lie in the external box, that leave the universe through a corner (no line of two planes through an edge of the external box), unions of half-spaces, complements of polyhedra, and cells that fill or miss the universe, all at least 2.1 mm wide, tolerance above 0.3. Missing: definitions with nested parentheses (the combination of boxes is C43) and the planes that replace curved surfaces."
  },
  {
   "property": "C79",
   "status": "partial",
   "theorems": [
    "Geouned.Card.C79_cards_partial",
    "Geouned.Card.C79_lines",
    "Geouned.Card.C79_blank_title",
    "Geouned.Card.C79_ampersand_violated",
    "Geouned.Card.C79_lone_c_violated",
    "Geouned.Card.C79_newline_violated",
    "Geouned.Card.C79_violated"
   ],
   "note": "Every deck whose continuation lines are indented, without a comment that is `c` alone after blanks, and with a final newline is read exactly (C79_cards_partial); no line is lost, any file (C79_lines). The three conditions are necessary: proved counterexamples. Tally comment cards (fc) are outside the specification."
  },
  {
   "property": "C80",
   "status": "partial",
   "theorems": [
    "Geouned.CellText.C80_card_partial",
    "Geouned.CellText.C80_density_violated",
    "Geouned.CellText.C80_trcl_violated",
    "Geouned.CellText.C80_noequals_violated",
    "Geouned.CellText.C80_nonu_violated",
    "Geouned.CellText.C80_minus_violated",
    "Geouned.CellText.C80_fill_violated",
    "Geouned.CellText.C80_cosy_violated",
    "Geouned.CellText.C80_like_violated",
    "Geouned.CellText.C80_line_violated",
    "Geouned.CellText.C80_violated"
   ],
   "note": "Every card whose numbers have signed exponents, whose parameters have an equals sign, and that meets the other conditions of `Usual` is read as written (C80_card_partial). The conditions of `Usual` and the signed exponents are needed: one proved counterexample each for density, TRCL entries, missing `=`, NONU, negative universe, FILL before TRCL, COSY, LIKE, material on another line. Lattice fills and `&` are outside the specification."
  },
  {
   "property": "C81",
   "status": "partial",
   "theorems": [
    "Geouned.SurfText.C81_cards_partial",
    "Geouned.SurfText.C81_fortran_violated",
    "Geouned.SurfText.C81_repetition_violated",
    "Geouned.SurfText.C81_data_violated",
    "Geouned.SurfText.C81_violated"
   ],
   "note": "From the characters of the file to the values: every file whose entries are numbers in the usual form and whose other data cards have harmless names is read as written (C81_cards_partial, on top of C79). Both conditions are needed: 1.5-3 and 2r raise ValueError, PTRAC and MGOPT raise ValueError (proved). nI, nM, nJ are outside the specification."
  },
  {
   "property": "C82",
   "status": "partial",
   "theorems": [
    "Geouned.Decom.C82_endless",
    "Geouned.Decom.C82_violated",
    "Geouned.Decom.C82_coarse_partial",
    "Geouned.Decom.C82_scaleUp_partial",
    "Geouned.Decom.C82_noScaleUp_partial",
    "Geouned.Decom.C82_fine_partial",
    "Geouned.Decom.C82_ends_partial"
   ],
   "note": "Violated for 0 < splitTolerance < 1e-13 with scaleUp (the default): endless recursion without calling the kernel (C82_endless). All other accepted values are covered by the partial theorems, which give the exact sequence of tolerances tried."
  },
  {
   "property": "C83",
   "status": "partial",
   "theorems": [
    "Geouned.Decom.C83_dropped_partial",
    "Geouned.Decom.C83_exact_partial",
    "Geouned.Decom.C83_sound_partial",
    "Geouned.Decom.C83_violated"
   ],
   "note": "Violated: pieces of at most 0.01 mm3 are dropped (a solid of 0.015 mm3 cut in two vanishes). Proved: with the dropped pieces, the result is a division; without small pieces it is one; no point is added or doubled."
  },
  {
   "property": "C84",
   "status": "partial",
   "theorems": [
    "Geouned.Decom.C84_report",
    "Geouned.Decom.C84_single_partial",
    "Geouned.Decom.C84_cells_partial",
    "Geouned.Decom.C84_last",
    "Geouned.Decom.C84_empty",
    "Geouned.Decom.C84_violated",
    "Geouned.Decom.C84_violated_pieces",
    "Geouned.Decom.C84_cuts_partial",
    "Geouned.Decom.C84_cuts_violated"
   ],
   "note": "Violated three times: the error number of SplitSolid is that of the last solid of the cell only (C84_last), split_2nd_order_planes keeps only the error of its last cut, and a cut of a closed cylinder that fails is taken as one that leaves the solid whole (C84_cuts_violated). Proved for cells of one solid: not reported implies volume within 1 %; what the report contains; and (C84_cuts_partial) which failing cuts are reported."
  },
  {
   "property": "C85",
   "status": "partial",
   "theorems": [
    "Geouned.Decom.C85_ends_partial",
    "Geouned.Decom.C85_volume_partial",
    "Geouned.Decom.C85_violated"
   ],
   "note": "Violated for kernels that produce empty pieces (nothing checks the volumes of the pieces cut by planes). Proved if no solid can be cut for ever, in particular if the kernel conserves the volume and its pieces have a least volume."
  },
  {
   "property": "C86",
   "status": "partial",
   "theorems": [
    "Geouned.Face.C86_sound_partial",
    "Geouned.Face.C86_increasing_partial",
    "Geouned.Face.C86_three_partial",
    "Geouned.Face.C86_violated"
   ],
   "note": "Violated: the list of faces is gone through once, so that a face reached only through a later one is missed (chain 0-2-1-3). Proved: every face found is linked (sound), the search is complete when every face of the chain can be reached in increasing order, and for at most three faces."
  },
  {
   "property": "C87",
   "status": "proved",
   "theorems": [
    "Geouned.Face.C87_partition",
    "Geouned.Face.C87_components"
   ],
   "note": "C87_partition: no face lost or repeated for any outcome of the tests; C87_components: the groups are the connected components when the tests are symmetric and `same torus` is an equivalence."
  },
  {
   "property": "C88",
   "status": "partial",
   "theorems": [
    "Geouned.Face.C88_total",
    "Geouned.Face.C88_cover_partial",
    "Geouned.Face.C88_closed_partial",
    "Geouned.Face.C88_cover_violated",
    "Geouned.Face.C88_closed_violated"
   ],
   "note": "Violated: overlapping ranges lose part of a face; stacked faces are said to go all around. Proved: the range always exists (C88_total); for ranges that follow each other without overlap it holds every face, and 'all around' is right."
  },
  {
   "property": "C89",
   "status": "proved",
   "theorems": [
    "Geouned.Face.C89_intervals"
   ],
   "note": "Full statement, for the ends sorted as the program does."
  },
  {
   "property": "C90",
   "status": "partial",
   "theorems": [
    "Geouned.Face.C90_partial",
    "Geouned.Face.C90_violated"
   ],
   "note": "Violated: faces whose range crosses the seam beyond a turn are not joined to faces after it. Proved when every range lies within one turn [0, 2pi]."
  },
  {
   "property": "C91",
   "status": "partial",
   "theorems": [
    "Geouned.Face.C91_half_partial",
    "Geouned.Face.C91_large_partial",
    "Geouned.Face.C91_violated"
   ],
   "note": "Violated: for more than half a turn the plane is computed from the absolute position, wrong for tori whose center is not on the line through the origin along the axis. Proved: ranges up to half a turn for every position; larger ranges for tori centered on that line."
  },
  {
   "property": "C92",
   "status": "partial",
   "theorems": [
    "Geouned.Face.C92_partial",
    "Geouned.Face.C92_violated"
   ],
   "note": "Violated: with a cylinder, a face of more than half a turn that is centered on the outer or inner equator is put on the wrong side. Proved for the plane and cone cases and for cylinders with the face in one half."
  },
  {
   "property": "C93",
   "status": "proved",
   "theorems": [
    "Geouned.Face.C93_cylinder",
    "Geouned.Face.C93_cone"
   ],
   "note": "Full statement; real numbers instead of floats; the parametrisation of the CAD kernel is written in the model."
  },
  {
   "property": "C94",
   "status": "partial",
   "theorems": [
    "Geouned.Load.C94_solids",
    "Geouned.Load.C94_cells_partial",
    "Geouned.Load.C94_total_partial",
    "Geouned.Load.C94_violated",
    "Geouned.Load.C94_index_violated",
    "Geouned.Load.C94_joined_partial"
   ],
   "note": "C94_solids is full. Cells and absence of exceptions: proved with labels as they are (delLastNumber off) and no envelope number used twice; C94_joined_partial: consecutive cells of one envelope number are joined into one which keeps number, kind, parent and all solids (but loses comment and material). Violated: two elements with the same envelope number swallow the elements between them, and if another envelope follows loading stops with IndexError."
  },
  {
   "property": "C95",
   "status": "partial",
   "theorems": [
    "Geouned.Load.C95_numbers_partial",
    "Geouned.Load.C95_violated"
   ],
   "note": "Violated: an enclosure of several solids followed by other solids and another enclosure gives a number twice. Proved for compSolids, or enclosures of one solid each."
  },
  {
   "property": "C96",
   "status": "partial",
   "theorems": [
    "Geouned.Load.C96_attributes_partial",
    "Geouned.Load.C96_root_violated",
    "Geouned.Load.C96_word_violated",
    "Geouned.Load.C96_number_partial"
   ],
   "note": "Proved for elements below another element with delLastNumber off, and with it on when every label ends with a last word to drop. Violated: an element at the top of the tree gets no material; delLastNumber drops the last word even if it is no number."
  },
  {
   "property": "C97",
   "status": "partial",
   "theorems": [
    "Geouned.Load.C97_cells_partial",
    "Geouned.Load.C97_enclosures_partial",
    "Geouned.Load.C97_numbers_partial",
    "Geouned.Load.C97_enclosures_violated",
    "Geouned.Load.C97_empty_violated",
    "Geouned.Load.C97_numbers_violated"
   ],
   "note": "Violated: enclosures of later files lost if the first has none; with enclosures in two files numbers collide; everything lost if the first file has no cells. Proved in the other cases."
  },
  {
   "property": "C98",
   "status": "partial",
   "theorems": [
    "Geouned.Load.C98_skip_partial",
    "Geouned.Load.C98_order",
    "Geouned.Load.C98_range",
    "Geouned.Load.C98_witness",
    "Geouned.Load.C98_twice_violated",
    "Geouned.Load.C98_negative_violated"
   ],
   "note": "Order of the indices and out-of-range indices: full. Violated for repeated indices and for several negative ones; proved for different indices that are not negative."
  },
  {
   "property": "C99",
   "status": "partial",
   "theorems": [
    "Geouned.Load.C99_table_partial",
    "Geouned.Load.C99_blank_violated"
   ],
   "note": "Violated: a blank line raises IndexError. Proved for files of comments and records; reading of numbers is a parameter."
  },
  {
   "property": "C100",
   "status": "partial",
   "theorems": [
    "Geouned.Conf.C100_independent_partial",
    "Geouned.Conf.C100_violated"
   ],
   "note": "Violated: the default objects of __init__ are made once, so that two instances made without arguments share them. Proved for every history in which instances are given objects of their own."
  },
  {
   "property": "C101",
   "status": "partial",
   "theorems": [
    "Geouned.Conf.C101_runs",
    "Geouned.Conf.C101_file_partial",
    "Geouned.Conf.C101_violated"
   ],
   "note": "When it runs and with which arguments: full (C101_runs). Violated: sections missing in the file are the shared default objects, which may have been changed (C100). Contents of sections are abstract; their validation is a parameter."
  },
  {
   "property": "C102",
   "status": "partial",
   "theorems": [
    "Geouned.McnpFile.C102_file",
    "Geouned.McnpFile.C102_read",
    "Geouned.McnpFile.C102_title_violated",
    "Geouned.McnpFile.C102_density_violated",
    "Geouned.McnpFile.C102_violated"
   ],
   "note": "C102_file: for every model with numbers of at most 8 digits, definitions at most 30 deep, formatted numbers of at most 21 characters and a title of one line, the characters of the file form a deck that obeys the rules and says exactly the model; C102_read: GEOReverse divides it into these cards if the file ends with a newline character. Violated by a title of two lines (its second line is a cell card in every valid reading, C102_title_violated) and by a material without density (TypeError). Formatting of floating point numbers is a parameter."
  },
  {
   "property": "C103",
   "status": "proved",
   "theorems": [
    "Geouned.McnpFile.C103_cells"
   ],
   "note": "The writer (McnpFile/Model) composed with the card reader (Card/Model) and the cell-card reader (CellText/Model); Python's float and the float formats are parameters constrained to produce/accept numbers."
  },
  {
   "property": "C104",
   "status": "proved",
   "theorems": [
    "Geouned.McnpFile.C104_surfaces"
   ],
   "note": "As C103 for the surface and data blocks (SurfText/Model)."
  },
  {
   "property": "C105",
   "status": "partial",
   "theorems": [
    "Geouned.OmcFile.C105_xml_partial",
    "Geouned.OmcFile.C105_violated",
    "Geouned.OmcFile.C105_quote_violated",
    "Geouned.OmcFile.C105_nosurf"
   ],
   "note": "The file is modelled character by character and read by a small XML reader (XmlSpec.lean) written from the XML rules. C105_xml_partial: for comments without quotation mark, < and &. Violated by comments with & (C105_violated) or a quotation mark: attribute values are not escaped. Without surfaces IndexError (C105_nosurf)."
  },
  {
   "property": "C106",
   "status": "partial",
   "theorems": [
    "Geouned.OmcFile.Read.C106_read",
    "Geouned.OmcFile.Read.C106_universe_violated",
    "Geouned.OmcFile.Read.C106_other_violated",
    "Geouned.OmcFile.Read.C106_noregion_violated"
   ],
   "note": "C106_read: the whole round trip for every file of C105. Violated for other XML files: universes 0 and 1 become one (C106_universe_violated), elements other than cell and surface become None (C106_other_violated), a cell without region raises KeyError (C106_noregion_violated)."
  },
  {
   "property": "C107",
   "status": "partial",
   "theorems": [
    "Geouned.OmcFile.C107_script_partial",
    "Geouned.OmcFile.C107_names_partial",
    "Geouned.OmcFile.C107_violated",
    "Geouned.OmcFile.C107_nosurf"
   ],
   "note": "The script is modelled character by character and divided into Python tokens by a small lexer (PySpec.lean). C107_script_partial: for comments without quotation mark and backslash; C107_names_partial: names assigned before use if every surface number occurring is one of the surfaces. Violated by a quotation mark in a comment (C107_violated). Without surfaces IndexError (C107_nosurf)."
  },
  {
   "property": "C108",
   "status": "partial",
   "theorems": [
    "Geouned.SerpFile.C108_file_partial",
    "Geouned.SerpFile.C108_title_violated",
    "Geouned.SerpFile.C108_universe_violated",
    "Geouned.SerpFile.C108_comment_violated",
    "Geouned.SerpFile.C108_cone_violated"
   ],
   "note": "The file is modelled character by character. C108_file_partial: valid and faithful if the title is a comment, there is no universe, every cell has a comment or material name, and no cone or oblique cylinder occurs. Each of the four restrictions is needed: C108_title_violated (the default title), C108_universe_violated (each cell twice), C108_comment_violated (`-2cell`), C108_cone_violated (no surface number)."
  },
  {
   "property": "C109",
   "status": "partial",
   "theorems": [
    "Geouned.PhitsFile.C109_file_partial",
    "Geouned.PhitsFile.C109_labels",
    "Geouned.PhitsFile.C109_title_violated",
    "Geouned.PhitsFile.C109_files_violated",
    "Geouned.PhitsFile.C109_zero_violated",
    "Geouned.PhitsFile.C109_voidMat_violated"
   ],
   "note": "The file is modelled character by character. C109_file_partial: valid and faithful for models that can be written (Good), with and without unified void cells; C109_labels decides which. Violations with witnesses: title of two lines, several STEP files (FileNotFoundError), solid of material 0 with unified void cells (density and card M0), voidMat that no cell has (no card)."
  },
  {
   "property": "C110",
   "status": "partial",
   "theorems": [
    "Geouned.PhitsFile.C110_regions_partial",
    "Geouned.PhitsFile.C110_fills_partial",
    "Geouned.PhitsFile.C110_zero_violated"
   ],
   "note": "C110_regions_partial: each card contains exactly the points of its cell, the inner void those of the sphere in no solid, for cells numbered as core.py does it and materials with positive numbers. C110_fills_partial: the cells of the file cover space. Violation for a solid of material 0: its density becomes part of the region."
  },
  {
   "property": "C111",
   "status": "partial",
   "theorems": [
    "Geouned.Session.C111_plain_partial",
    "Geouned.Session.C111_settled_partial",
    "Geouned.Session.C111_phits_violated",
    "Geouned.Session.C111_mcnp_violated",
    "Geouned.Session.C111_serpent_violated",
    "Geouned.Session.C111_openmc_violated",
    "Geouned.Session.C111_comments_violated"
   ],
   "note": "Full statement C111_statement (per kind of file). Proved: it holds if no earlier export asks for PHITS or the model has no inner/outer void (C111_plain_partial), and from the first PHITS export on nothing changes any more (C111_settled_partial). Violated after an export of PHITS for PHITS, MCNP, Serpent, OpenMC and the comment file (witnesses). Orientation of planes across exports is C33."
  },
  {
   "property": "C112",
   "status": "partial",
   "theorems": [
    "Geouned.Session.C112_arguments",
    "Geouned.Session.C112_single",
    "Geouned.Session.C112_files",
    "Geouned.Session.C112_ends",
    "Geouned.Session.C112_failure",
    "Geouned.Session.C112_independent",
    "Geouned.Session.C112_zero_violated"
   ],
   "note": "Proved in full for arguments, files, independence and failure points; partial only because UCARD=0 writes U=0 (C112_zero_violated) although documented otherwise."
  },
  {
   "property": "C113",
   "status": "proved",
   "theorems": [
    "Geouned.RBool.C113_parse",
    "Geouned.RBool.C113_evaluate",
    "Geouned.RBool.C113_complement"
   ],
   "note": "The tokens of a text are those of Text/Spec.lean; characters that are no tokens are outside the grammar. Sequences are values: evaluate returns the regrouped sequence."
  },
  {
   "property": "C114",
   "status": "partial",
   "theorems": [
    "Geouned.Poly.C114_planes",
    "Geouned.Poly.C114_forward_partial",
    "Geouned.Poly.C114_forward_violated",
    "Geouned.Poly.C114_reversed_partial",
    "Geouned.Poly.C114_exact_partial",
    "Geouned.Poly.C114_exact_violated",
    "Geouned.Poly.C114_unsupported_violated"
   ],
   "note": "Proved for cells that use no curved surface with both signs. Violated: with both signs the planes of the sign treated last stand for both; True == 1 in Python, so that `1 5` becomes True when the planes of 5 are dropped; surface types without planes stay as numbers without plane (later KeyError)."
  },
  {
   "property": "C115",
   "status": "partial",
   "theorems": [
    "Geouned.Shape.C115_enclosed_partial",
    "Geouned.Shape.C115_torus_violated",
    "Geouned.Shape.C115_oblique_torus_violated",
    "Geouned.Shape.C115_box",
    "Geouned.Shape.C115_plane_partial",
    "Geouned.Shape.C115_plane_violated",
    "Geouned.Shape.C115_cell_partial"
   ],
   "note": "Proved for all surfaces except tori that are elliptical or not along a coordinate axis, and planes whose normal is not of length 1; for these the code is wrong: the two minor radii of an elliptical torus are exchanged, an oblique torus raises UnboundLocalError, and a card `P` with a normal of another length is moved. Real arithmetic."
  },
  {
   "property": "C116",
   "status": "partial",
   "theorems": [
    "Geouned.Facet.C116_solids_partial",
    "Geouned.Facet.C116_sound_partial",
    "Geouned.Facet.C116_convex",
    "Geouned.Facet.C116_edge",
    "Geouned.Facet.C116_order_violated",
    "Geouned.Facet.C116_coplanar_violated",
    "Geouned.Facet.C116_inverted_violated",
    "Geouned.Facet.C116_thin_violated"
   ],
   "note": "C116_convex: cells of convex solids are exact. C116_solids_partial/C116_sound_partial: exact when the solids are not inside out, the first face of each group meets all the others of it, and faces of notches share no plane. Each of the three conditions is needed (C116_order_violated: the letter U loses an arm; C116_coplanar_violated: an upside-down T loses a foot because removeElement removes the first face with the same plane number; C116_inverted_violated: an inside-out block). C116_edge: the convexity test; C116_thin_violated: it fails for faces narrower than 0.1 mm."
  },
  {
   "property": "C117",
   "status": "proved",
   "theorems": [
    "Geouned.Driver.C117_exclude",
    "Geouned.Driver.C117_void_input"
   ],
   "note": "C117_exclude: the function; C117_void_input: in every run, stated by letting void generation refuse every other list, which changes nothing. Cells are identified by number, comment and solids."
  },
  {
   "property": "C118",
   "status": "proved",
   "theorems": [
    "Geouned.Driver.C118_box",
    "Geouned.Driver.C118_run"
   ],
   "note": "C118_box: holds all boxes with the margin, and no side is farther out than the margin beyond some solid; C118_run: after every run that ends."
  },
  {
   "property": "C119",
   "status": "partial",
   "theorems": [
    "Geouned.Driver.C119_kept_partial",
    "Geouned.Driver.C119_runs_partial",
    "Geouned.Driver.C119_overlap_violated",
    "Geouned.Driver.C119_full_violated",
    "Geouned.Driver.C119_sort_violated",
    "Geouned.Driver.C119_violated"
   ],
   "note": "C119_runs_partial: without sorting by enclosures; with forceNoOverlap only with facets, without enclosures or with one cell; with simplify full only if all enclosures take part in void generation. Each restriction corresponds to a failure for every model: C119_overlap_violated, C119_full_violated, C119_sort_violated (AttributeError, AttributeError, KeyError). Sorting together with void generation is not covered (see C32)."
  },
  {
   "property": "C120",
   "status": "partial",
   "theorems": [
    "Geouned.Driver.C120_second_run",
    "Geouned.Driver.C120_violated"
   ],
   "note": "False for every program and every model: C120_second_run shows that the second call always stops with AttributeError/TypeError (comment cells in meta_list have no solids), and that it leaves the state as it was; C120_violated refutes the statement."
  },
  {
   "property": "C121",
   "status": "partial",
   "theorems": [
    "Geouned.Nest.C121_returns",
    "Geouned.Nest.C121_nested_partial",
    "Geouned.Nest.C121_mixed",
    "Geouned.Nest.C121_foil_violated",
    "Geouned.Nest.C121_cell_returns",
    "Geouned.Nest.C121_cell_partial"
   ],
   "note": "C121_returns, C121_cell_returns: no exception for any nesting. C121_nested_partial: right box for every nesting whose level-0 parts fit (the cases of C78) and whose intersections are no slivers (at least 2.1 mm wide, or empty); C121_mixed: the union of a forward and a reversed box. C121_cell_partial: cells with curved surfaces, through C114/C115. C121_foil_violated: a cube with a foil of 0.05 mm sticking out gets the box of the cube only."
  },
  {
   "property": "C122",
   "status": "partial",
   "theorems": [
    "Geouned.Whole.C122_enclosures_partial",
    "Geouned.Whole.C122_enclosures_mcnp_partial",
    "Geouned.Whole.C122_full_partial",
    "Geouned.Whole.C122_violated",
    "Geouned.Whole.C122_cells_partial",
    "Geouned.Whole.C122_mcnp_partial",
    "Geouned.Whole.C122_xml_partial",
    "Geouned.Whole.C122_phits_partial"
   ],
   "note": "Composition of C25, C26, C27, C50, C52, C59 with the file theorems C103, C106, C110; with enclosures (C122_enclosures_partial, C122_enclosures_mcnp_partial) also of C61, C62, C63, C124. C122_violated: a point of a long universe box that is in no cell (C27). Missing in the partial theorems: the situations in which C26 (lossy simplification), C27 (boxes longer than 2^17 minimum sizes), C63 and C124 are false, definitions rewritten by forceNoOverlap, and the rounding of the numbers of the surface cards: the sides of the surfaces in the file are a hypothesis (C47-C49, C71, C104)."
  },
  {
   "property": "C123",
   "status": "partial",
   "theorems": [
    "Geouned.Setup.C123_assign",
    "Geouned.Setup.C123_make",
    "Geouned.Setup.C123_types_partial",
    "Geouned.Setup.C123_types_violated",
    "Geouned.Setup.C123_defaults_partial",
    "Geouned.Setup.C123_defaults_violated",
    "Geouned.Setup.C123_names_violated"
   ],
   "note": "Assignments and constructions proved for all states; types and defaults for all histories in which no list is changed in place. Violated: settings.voidExclude.append(5) is not checked; the default lists of voidMat and voidExclude are shared by all Settings objects, so an append to one changes the defaults of the next; a misspelt name in an assignment is accepted. Types are Python's: True is an int, NaN is a float that is not negative."
  },
  {
   "property": "C124",
   "status": "partial",
   "theorems": [
    "Geouned.Void.C124_boxes_violated",
    "Geouned.Void.C124_boxes_partial",
    "Geouned.Void.C124_void_partial"
   ],
   "note": "C124_statement is refuted by C124_boxes_violated: piece_enclosure_split keeps only the first solid of what a half has in common with the piece, so that a U-shaped enclosure loses a leg. C124_boxes_partial: if no half has several solids (and within the 50 rounds of C27), each point of the enclosure is in exactly one void box. C124_void_partial: the same for the void cells, with the solids chosen as in C59 and the complement of C26. The answers of the CAD kernel and the definition of the pieces (C60) are hypotheses."
  },
  {
   "property": "C125",
   "status": "partial",
   "theorems": [
    "Geouned.RCore.C125_violated",
    "Geouned.RCore.C125_apart_violated",
    "Geouned.RCore.C125_names_partial",
    "Geouned.RCore.C125_suffix",
    "Geouned.RCore.C125_forms",
    "Geouned.RCore.C125_default",
    "Geouned.RCore.C125_apart_partial"
   ],
   "note": "C125_violated, C125_apart_violated: every suffix is cut from the name: model_v1.2 and model_v1.3 are both written to model_v1.stp. Partial for names without a dot in the middle, or with .stp/.step; C125_forms shows that C125_names_partial and C125_suffix together describe every file name."
  },
  {
   "property": "C126",
   "status": "partial",
   "theorems": [
    "Geouned.RCore.C126_violated",
    "Geouned.RCore.C126_box_partial",
    "Geouned.RCore.C126_radius_violated",
    "Geouned.RCore.C126_radius_partial",
    "Geouned.RCore.C126_apart_violated",
    "Geouned.RCore.C126_apart_partial",
    "Geouned.RCore.C126_values_violated",
    "Geouned.RCore.C126_values_partial"
   ],
   "note": "C126_violated: universe_box is computed once in __init__, later assignments to box_dimensions or universe_radius are accepted without effect. C126_apart_violated: the default settings object is shared by all converters. C126_radius_violated: the cube of the radius, not the sphere. C126_values_violated: IndexError for short sequences, True as a number."
  },
  {
   "property": "C127",
   "status": "partial",
   "theorems": [
    "Geouned.Back.C127_violated",
    "Geouned.Back.C127_flat_partial",
    "Geouned.Back.C127_nested_partial",
    "Geouned.Back.C127_hash_partial",
    "Geouned.Back.C127_back_partial"
   ],
   "note": "C127_violated: for the text (1 2:-1 3) (-2:4) half of the cell is missing (C77). Proved for texts without parentheses (C127_flat_partial), for nested ones that are tidy and start bounded (C127_nested_partial), for decks with '#' (C127_hash_partial), and for the file GEOUNED writes (C127_back_partial: regions without parentheses; that the surfaces come back is C104)."
  },
  {
   "property": "C128",
   "status": "partial",
   "theorems": [
    "Geouned.RCore.C128_tree",
    "Geouned.RCore.C128_once",
    "Geouned.RCore.C128_within",
    "Geouned.RCore.C128_solids",
    "Geouned.RCore.C128_cell_label",
    "Geouned.RCore.C128_universe_label",
    "Geouned.RCore.C128_material_label_violated",
    "Geouned.RCore.C128_material_label_partial"
   ],
   "note": "C128_tree, C128_once, C128_within and C128_solids are the whole property on content; the labels of the material parts are proved distinct within one universe (C128_material_label_partial) and the code violates the rest (C128_material_label_violated: container and universe numbers are concatenated without separator). FreeCAD's own making of labels unique is not modelled."
  },
  {
   "property": "C129",
   "status": "partial",
   "theorems": [
    "Geouned.C129_sound",
    "Geouned.C129_exact",
    "Geouned.C129_returns",
    "Geouned.C129_no_surface",
    "Geouned.C129_simplify_partial"
   ],
   "note": "Sound for every honest kernel; exact when cuts leave pieces on both sides and 'not away' means crossing; it returns with all pairs filled; with no surface IndexError. Composition with simplify is partial: the sibling overwriting of C12 and two crossing surfaces that are equal or opposite all over the box (C20) are excluded by hypothesis. The kernel's cuts, distances and points inside solids are assumptions (CutKernel.Honest)."
  },
  {
   "property": "C130",
   "status": "partial",
   "theorems": [
    "Geouned.Geom.C130_plane",
    "Geouned.Geom.C130_cylinder",
    "Geouned.Geom.C130_sphere",
    "Geouned.Geom.C130_cone",
    "Geouned.Geom.C130_torus",
    "Geouned.Geom.C130_sign_partial",
    "Geouned.Geom.C130_card_partial",
    "Geouned.Geom.C130_oblique_cone_violated",
    "Geouned.Geom.C130_inner_torus_violated"
   ],
   "note": "Proved against the geometric surfaces for planes, cylinders, spheres, aligned cones (one sheet) and tori, and against the written MCNP card through C47. False of cones that are not along a coordinate axis (the card has both sheets, the sign one) and of the inner part of a self-cutting torus (the card has a negative major radius, the sign the positive one): witnesses proved. Exact reals; the rounding of the cosine to 15 places is left out; planes printed by three points are excluded."
  },
  {
   "property": "C131",
   "status": "partial",
   "theorems": [
    "Geouned.RCli.C131_runs",
    "Geouned.RCli.C131_cells",
    "Geouned.RCli.C131_no_partial_output",
    "Geouned.RCli.C131_order",
    "Geouned.RCli.C131_no_read",
    "Geouned.RCli.C131_other_sections",
    "Geouned.RCli.C131_ignored_violated"
   ],
   "note": "Sound for the documented sections; a section with another name is silently ignored (C131_ignored_violated), so the clause that it should be refused is false of the code."
  },
  {
   "property": "C132",
   "status": "partial",
   "theorems": [
    "Geouned.Renum.C132_renumbers_partial",
    "Geouned.Renum.C132_unknown",
    "Geouned.Renum.C132_all_texts",
    "Geouned.Renum.C132_zero_violated",
    "Geouned.Renum.C132_tokens"
   ],
   "note": "Proved for all texts whose numbers have no zero in front (C132_all_texts: nothing else is left out); with such a zero the loop of processSurfaces does not end, and that of substituteLikeCell stops early (C132_zero_violated)."
  }
 ]
}