{
 "C01": {
  "status": "proved",
  "note": "Every list expression and every item list. The excluded case (self already a bare boolean) is shown to raise in C01_append_bool_violated."
 },
 "C09": {
  "note": "Expressions built of surfaces; the excluded case (a bare boolean) is shown to raise."
 },
 "C11": {
  "note": "False of the code in full (witness theorem). Proved for every execution in which update() overwrites no sibling, and for flat expressions without restriction."
 },
 "C12": {
  "note": "False of the code in full (witness: AND[OR[1 2 -2] OR[3 4]] simplifies to True; mixed-level expressions raise). Proved for every execution in which update() overwrites no sibling, all iteration orders and recursion limits."
 },
 "C13": {
  "note": "Same defect as C12. Proved for every sound table in every execution in which update() overwrites no sibling. Also stated for the tables of the code themselves (C13_simplify_table_partial; tables without an entry saying two surfaces are equal/opposite)."
 },
 "C19": {
  "status": "proved",
  "note": "Pair entries. For diagonal entries the code returns a bare integer (shown); the code never transposes those (fill_missing_elements skips the diagonal)."
 },
 "C20": {
  "note": "False of the code for entries (0,1,0,1) and (1,0,1,0) (witness). Proved for all other tables, with totality after filling."
 },
 "C22": {
  "note": "False in matrix mode for tables with such entries (consequence of C20); proved for all others and, in diagonal mode, for every table."
 },
 "C23": {
  "note": "False of the code when check() finds a sub-cell empty or full: the result is negated (witness). Proved otherwise; and for the corrected test without restriction."
 },
 "C45": {
  "note": "Proved when each side has pieces; with an empty side the value left from the previous surface is used (shown)."
 },
 "C30": {
  "note": "Proved for every history without deletion of the last entry; after such a deletion get_surface raises (witness)."
 },
 "C39": {
  "note": "False of the code for planes with relative tolerances and for cylinders with axes only nearly parallel (witnesses). Proved for spheres, cones, tori (all tolerances), planes with absolute tolerances, cylinders with equal/opposite axes."
 },
 "C46": {
  "note": "Proved for planes, cylinders, spheres, tori, and for cones as double cones; false for the one-sheet cones which the code writes (opposite axes are identified)."
 },
 "C47": {
  "note": "False of the code for tori with oblique axes (an empty card is written); proved for all other surfaces."
 },
 "C48": {
  "note": "XML: false for oblique tori (type None), proved for the rest. Python: false for every torus (keywords r, r1, r2 do not exist), proved for the rest."
 },
 "C49": {
  "note": "False of the code for all cones, for cylinders along Z and oblique cylinders (unreadable cards); proved for planes, cylinders along X and Y, spheres, aligned tori."
 },
 "C26": {
  "note": "False of the code (witnesses: region lost for a single solid in mode diag; the whole void cell lost when check() decides a sub-cell; AttributeError; enclosure cells reaching outside in mode full). Proved for every execution in which none of the three known defects fires, all modes, with and without piece enclosure."
 },
 "C27": {
  "note": "False of the code (50-round cap, witness). Proved for every box whose splits cannot nest 50 deep."
 },
 "C28": {
  "note": "False of the code (TypeError, witness). Proved for every call that returns without the known defects of check/simplify."
 },
 "C50": {
  "note": "Exact real arithmetic; registered planes are exactly coincident up to orientation."
 },
 "C51": {
  "note": "Exact real arithmetic; registered planes are exactly coincident up to orientation."
 },
 "C52": {
  "note": "Composition of C25, C26, C27, C51. C52_violated: a universe box of 2^60 minimum sizes (C27). Partial: universe box without piece enclosure, executions in which C26 and C27 hold, CAD answers (tables, lists of solids of a box) right at the point."
 },
 "C32": {
  "note": "False of the code when sorting with an envelope (KeyError), with equal enclosure numbers from two files (cells written twice), or when a comment names a null solid (witnesses). Proved for all other inputs, both modes."
 },
 "C40": {
  "note": "The Density attribute, when set before, is overwritten or kept exactly as the code does (C40_stale_attribute)."
 },
 "C44": {
  "note": "False for strings with characters that str.isdigit accepts and int() rejects (e.g. superscript two): ValueError. Proved for all other strings."
 },
 "C53": {
  "note": "False of the code: both checks are dead (witness theorems)."
 },
 "C54": {
  "note": "Proved without sorting; false with sorting (identifiers of void cells repeat those of solids, witness)."
 },
 "C55": {
  "note": "False of the code (the internal id is printed). Proved when ids and labels coincide."
 },
 "C33": {
  "note": "Axes compared exactly. Proved: without three-point planes the sign treatment of simplify_planes keeps every cell's meaning in every export; with them the first export is right when no three-point plane is aligned with an axis. Violated: three-point planes are toggled again at each writer (a second export, or OpenMC after MCNP, gets the opposite cells), and aligned three-point planes below the origin are wrong even in the first MCNP file."
 },
 "C56": {
  "note": "Proved for cells whose oblique cones are all recorded with their sign (C56_one_sheet_partial); C56_solids_from_faces proves this hypothesis for the solids made from faces, and the written cells hold where the faces agree with one-sheet cones. Violated with forceNoOverlap: the complement of an earlier cell brings a cone that is not recorded for the later cell, which then gets both sheets. Not proved: that the cones of void cells are recorded."
 },
 "C16": {
  "note": "Token level: every well-formed text is accepted, at any nesting, for every iteration order of Python sets; the grammar is proved unambiguous. Character-level tokenising is not in this theorem."
 },
 "C17": {
  "note": "MCNP, PHITS, Serpent, OpenMC XML and OpenMC Python, all trees without boolean constants; round trip through BoolSequence(string). For MCNP, PHITS and Serpent also on the characters of the wrapped lines (C17_cell_card), and with conditions on the size of the numbers and the depth of the tree only (C17_definition). Violated for a definition that is (or contains) a boolean constant: the writers raise TypeError."
 },
 "C18": {
  "note": "Every well-formed text; also only parentheses are touched."
 },
 "C34": {
  "note": "Character level: wrap_line (tidying substitutions and cutting loop with Python's negative indices) and CardLine; without the condition that words fit the loop never ends (C34_too_long_never_ends)."
 },
 "C57": {
  "note": "Violated: cut_line loops for ever when the last blank of a long line is beyond the line length. C57_trim_partial: it works when that blank is within and the rest fits."
 },
 "C58": {
  "note": "Heap model (objects with addresses, in-place updates). Proved: insert_in_sequence stores one shared object at every place and computes the meaning of C15; change_surf_sign turns the surface iff every object holding it sits in an odd number of places. Violated: with an even number of places the shared object is toggled an even number of times (C58_violated)."
 },
 "C59": {
  "note": "False in full: after forceNoOverlap the definition has no longer one element per CAD solid, remove_extra_comp takes the wrong element (C59_void_box_violated). Proved for every list of cells whose definition has one part per solid, each part inside the box of its solid."
 },
 "C60": {
  "note": "The geometric questions (which registered surface, orientation, additional planes) are inputs of the model. C60_feeds_void_boxes: the result satisfies the hypotheses of C59 and C52."
 },
 "C61": {
  "note": "Full statement C61_statement, refuted by C61_embedded_violated: the answer -2 of check_intersection (enclosure inside the solid) is ignored by assignEnclosure. C61_assign_partial proves it for all hierarchies when -2 is not answered; the universe clause, the converse and ParentEnclosureID without that condition."
 },
 "C62": {
  "note": "Proved for all hierarchies, void lists and envelopes; comments of the cells are C54."
 },
 "C63": {
  "note": "Full statement C63_statement, refuted by C63_embedded_violated (same defect as C61). C63_void_with_enclosures_partial: for solids without the answer -2. That each call of get_void_def fills its enclosure is a hypothesis on the calls made (see C26, C27, C52)."
 },
 "C64": {
  "status": "partial",
  "note": "Proved for cards without TRCL/LIKE, any deck without cycles. Violated for transformed cells: `#n` takes the geometry of cell n without its TRCL; a TRCL/LIKE cell keeps its `#`. A cell that mentions itself: RecursionError."
 },
 "C65": {
  "status": "partial",
  "note": "C65_mcnp proves it for MCNP files. For OpenMC files it is violated: the combination include-material/exclude-cell raises AttributeError always; a filter that leaves no cell raises ValueError. `include` without a list keeps the list of an earlier call, or raises TypeError."
 },
 "C66": {
  "status": "partial",
  "note": "Levels (C66_levels), rejection (C66_lonely, C66_no_root) and nested universes (C66_subuniverses) in full. Choice by depth: when every universe is nested at one level only (C66_selection_partial); refuted otherwise (C66_deep_violated), and for OpenMC files unwanted universes are kept (C66_xml_violated)."
 },
 "C67": {
  "status": "partial",
  "note": "C67_statement is refuted by a universe that fills two cells (its shapes are made in the box of the first). C67_cells_partial/C67_universe_partial: every universe fills one cell, transformations given below a transformation. Further violations: no transformation in a moved universe, universes at several levels, build_container one level too deep. The CAD kernel is a parameter with exact operations (Kernel.Lawful, satisfied by exactKernel)."
 },
 "C68": {
  "status": "partial",
  "note": "C68_statement is refuted by a file with a surface card that is skipped (new numbers start at the number of surfaces and overwrite one). C68_read_partial: all files with ids 1..n for which LIKE names an earlier card or one that is no LIKE card, of the same universe and not filtered out, no entry changed to 0, no # together with TRCL/LIKE, and no FILL transformation beside TRCL; each of these conditions (# : C64) is shown to be needed by its own violated theorem. Surfaces are sets of points; the equations of moved surfaces are not part of C68."
 },
 "C69": {
  "note": "Proved when the file has no LIKE and TRCL, surfaces are named 1, 2, ..., and every build has a filter; the others are counterexamples (second build fails with AttributeError or KeyError, or cells get wrong surfaces)."
 },
 "C70": {
  "note": "Proved for cards without LIKE, TRCL, #; each of these is a counterexample."
 },
 "C71": {
  "note": "C71_statement is refuted by cylinders given by two points (exception, or an earlier cylinder moved), two points at one height, a point on the axis, the apex of a TRC, and the prolonged facet of a REC. C71_cards_read_partial: all lists of cards without these, all points off the infinite facets of TRC and REC. Cards SQ and GQ: C74."
 },
 "C72": {
  "note": "Refuted for P with a normal that is no unit vector, for BOX/RPP with a displacement, and (TRCL) for the original of a copied REC. C72_transformed_cards_partial: all files without these; C72_copy_partial: the same for TRCL."
 },
 "C73": {
  "note": "Refuted for two axes given by cosines (TypeError) and for M = -1 (ignored). Proved for all other forms, TR cards and TRCL/FILL."
 },
 "C74": {
  "note": "Proved for every result allowed by eigh: cylinders circular and elliptic, hyperbolic cylinders with negative constant, cones of 45 degrees, hyperboloids around the origin, and SQ = GQ. False for: every other circular cone (tangent inverted), every hyperboloid with another centre, ellipsoids and spheres (surface_side raises), negated circular cylinders (sides exchanged), paraboloids along x (axis reversed). Elliptic cones, elliptic hyperboloids, paraboloids in other directions and eigenvalues within the tolerances are not treated."
 },
 "C75": {
  "note": "Proved for files of any length with all types of surfaces, quadrics being cylinders with coefficients 1 (any position and direction) or cones of 45 degrees. False for: other circular cones (inverse tangent), narrow cones (read as cylinders), hyperboloids (read as cones), spheres, ellipsoids and elliptic cylinders (lost), scaled cylinders (moved, for one admissible eigenbasis)."
 },
 "C76": {
  "note": "Proved for lists of surfaces of any length, all kinds and positions, in MCNP and XML, as long as cones with an oblique axis have a half angle of 45 degrees. False for every other oblique cone (tangent inverted on reading). Number formatting is not modelled."
 },
 "C77": {
  "note": "Proved, with any CAD kernel that satisfies the assumptions of `Right` (SolidSpec.lean), for all sequences and unions of sequences, bounded or not (C77_flat_partial), and for every nesting in which no surface of a nested union occurs again in a later element of the same intersection and each intersection starts with a bounded part (C77_nested_partial). False otherwise: after a union the remembered sides are those of only some of its parts (C77_join_violated), and an unbounded part that lies apart from the box of the next element makes the code add the whole region of that element (C77_reversed_violated)."
 },
 "C78": {
  "note": "Violated: a foil thinner than 0.1 mm (its corners are merged by remove_close_points, the flat box is dropped and the cell is said to be empty), and a prism with a pointed end that leaves the universe through a face (no corner of the universe is in it, so it is taken to be bounded and cut at its last corner). Proved over any ordered field: the method always returns a box (C78_returns); intersections of half-spaces that lie in the external box, that leave the universe through a corner (no line of two planes through an edge of the external box), unions of half-spaces, complements of polyhedra, and cells that fill or miss the universe, all at least 2.1 mm wide, tolerance above 0.3. Missing: definitions with nested parentheses (the combination of boxes is C43) and the planes that replace curved surfaces."
 },
 "C79": {
  "note": "Every deck whose continuation lines are indented, without a comment that is `c` alone after blanks, and with a final newline is read exactly (C79_cards_partial); no line is lost, any file (C79_lines). The three conditions are necessary: proved counterexamples. Tally comment cards (fc) are outside the specification."
 },
 "C80": {
  "status": "partial",
  "note": "Every card whose numbers have signed exponents, whose parameters have an equals sign, and that meets the other conditions of `Usual` is read as written (C80_card_partial). The conditions of `Usual` and the signed exponents are needed: one proved counterexample each for density, TRCL entries, missing `=`, NONU, negative universe, FILL before TRCL, COSY, LIKE, material on another line. Lattice fills and `&` are outside the specification."
 },
 "C81": {
  "status": "partial",
  "note": "From the characters of the file to the values: every file whose entries are numbers in the usual form and whose other data cards have harmless names is read as written (C81_cards_partial, on top of C79). Both conditions are needed: 1.5-3 and 2r raise ValueError, PTRAC and MGOPT raise ValueError (proved). nI, nM, nJ are outside the specification."
 },
 "C82": {
  "note": "Violated for 0 < splitTolerance < 1e-13 with scaleUp (the default): endless recursion without calling the kernel (C82_endless). All other accepted values are covered by the partial theorems, which give the exact sequence of tolerances tried."
 },
 "C83": {
  "note": "Violated: pieces of at most 0.01 mm3 are dropped (a solid of 0.015 mm3 cut in two vanishes). Proved: with the dropped pieces, the result is a division; without small pieces it is one; no point is added or doubled."
 },
 "C84": {
  "note": "Violated three times: the error number of SplitSolid is that of the last solid of the cell only (C84_last), split_2nd_order_planes keeps only the error of its last cut, and a cut of a closed cylinder that fails is taken as one that leaves the solid whole (C84_cuts_violated). Proved for cells of one solid: not reported implies volume within 1 %; what the report contains; and (C84_cuts_partial) which failing cuts are reported."
 },
 "C85": {
  "note": "Violated for kernels that produce empty pieces (nothing checks the volumes of the pieces cut by planes). Proved if no solid can be cut for ever, in particular if the kernel conserves the volume and its pieces have a least volume."
 },
 "C86": {
  "status": "partial",
  "note": "Violated: the list of faces is gone through once, so that a face reached only through a later one is missed (chain 0-2-1-3). Proved: every face found is linked (sound), the search is complete when every face of the chain can be reached in increasing order, and for at most three faces."
 },
 "C87": {
  "status": "proved",
  "note": "C87_partition: no face lost or repeated for any outcome of the tests; C87_components: the groups are the connected components when the tests are symmetric and `same torus` is an equivalence."
 },
 "C88": {
  "status": "partial",
  "note": "Violated: overlapping ranges lose part of a face; stacked faces are said to go all around. Proved: the range always exists (C88_total); for ranges that follow each other without overlap it holds every face, and 'all around' is right."
 },
 "C89": {
  "status": "proved",
  "note": "Full statement, for the ends sorted as the program does."
 },
 "C90": {
  "status": "partial",
  "note": "Violated: faces whose range crosses the seam beyond a turn are not joined to faces after it. Proved when every range lies within one turn [0, 2pi]."
 },
 "C91": {
  "status": "partial",
  "note": "Violated: for more than half a turn the plane is computed from the absolute position, wrong for tori whose center is not on the line through the origin along the axis. Proved: ranges up to half a turn for every position; larger ranges for tori centered on that line."
 },
 "C92": {
  "status": "partial",
  "note": "Violated: with a cylinder, a face of more than half a turn that is centered on the outer or inner equator is put on the wrong side. Proved for the plane and cone cases and for cylinders with the face in one half."
 },
 "C93": {
  "status": "proved",
  "note": "Full statement; real numbers instead of floats; the parametrisation of the CAD kernel is written in the model."
 },
 "C94": {
  "status": "partial",
  "note": "C94_solids is full. Cells and absence of exceptions: proved with labels as they are (delLastNumber off) and no envelope number used twice; C94_joined_partial: consecutive cells of one envelope number are joined into one which keeps number, kind, parent and all solids (but loses comment and material). Violated: two elements with the same envelope number swallow the elements between them, and if another envelope follows loading stops with IndexError."
 },
 "C95": {
  "status": "partial",
  "note": "Violated: an enclosure of several solids followed by other solids and another enclosure gives a number twice. Proved for compSolids, or enclosures of one solid each."
 },
 "C96": {
  "status": "partial",
  "note": "Proved for elements below another element with delLastNumber off, and with it on when every label ends with a last word to drop. Violated: an element at the top of the tree gets no material; delLastNumber drops the last word even if it is no number."
 },
 "C97": {
  "status": "partial",
  "note": "Violated: enclosures of later files lost if the first has none; with enclosures in two files numbers collide; everything lost if the first file has no cells. Proved in the other cases."
 },
 "C98": {
  "status": "partial",
  "note": "Order of the indices and out-of-range indices: full. Violated for repeated indices and for several negative ones; proved for different indices that are not negative."
 },
 "C99": {
  "status": "partial",
  "note": "Violated: a blank line raises IndexError. Proved for files of comments and records; reading of numbers is a parameter."
 },
 "C100": {
  "status": "partial",
  "note": "Violated: the default objects of __init__ are made once, so that two instances made without arguments share them. Proved for every history in which instances are given objects of their own."
 },
 "C101": {
  "status": "partial",
  "note": "When it runs and with which arguments: full (C101_runs). Violated: sections missing in the file are the shared default objects, which may have been changed (C100). Contents of sections are abstract; their validation is a parameter."
 },
 "C102": {
  "note": "C102_file: for every model with numbers of at most 8 digits, definitions at most 30 deep, formatted numbers of at most 21 characters and a title of one line, the characters of the file form a deck that obeys the rules and says exactly the model; C102_read: GEOReverse divides it into these cards if the file ends with a newline character. Violated by a title of two lines (its second line is a cell card in every valid reading, C102_title_violated) and by a material without density (TypeError). Formatting of floating point numbers is a parameter."
 },
 "C103": {
  "note": "The writer (McnpFile/Model) composed with the card reader (Card/Model) and the cell-card reader (CellText/Model); Python's float and the float formats are parameters constrained to produce/accept numbers."
 },
 "C104": {
  "note": "As C103 for the surface and data blocks (SurfText/Model)."
 },
 "C105": {
  "note": "The file is modelled character by character and read by a small XML reader (XmlSpec.lean) written from the XML rules. C105_xml_partial: for comments without quotation mark, < and &. Violated by comments with & (C105_violated) or a quotation mark: attribute values are not escaped. Without surfaces IndexError (C105_nosurf)."
 },
 "C106": {
  "status": "partial",
  "note": "C106_read: the whole round trip for every file of C105. Violated for other XML files: universes 0 and 1 become one (C106_universe_violated), elements other than cell and surface become None (C106_other_violated), a cell without region raises KeyError (C106_noregion_violated)."
 },
 "C107": {
  "note": "The script is modelled character by character and divided into Python tokens by a small lexer (PySpec.lean). C107_script_partial: for comments without quotation mark and backslash; C107_names_partial: names assigned before use if every surface number occurring is one of the surfaces. Violated by a quotation mark in a comment (C107_violated). Without surfaces IndexError (C107_nosurf)."
 },
 "C108": {
  "note": "The file is modelled character by character. C108_file_partial: valid and faithful if the title is a comment, there is no universe, every cell has a comment or material name, and no cone or oblique cylinder occurs. Each of the four restrictions is needed: C108_title_violated (the default title), C108_universe_violated (each cell twice), C108_comment_violated (`-2cell`), C108_cone_violated (no surface number)."
 },
 "C109": {
  "note": "The file is modelled character by character. C109_file_partial: valid and faithful for models that can be written (Good), with and without unified void cells; C109_labels decides which. Violations with witnesses: title of two lines, several STEP files (FileNotFoundError), solid of material 0 with unified void cells (density and card M0), voidMat that no cell has (no card)."
 },
 "C110": {
  "note": "C110_regions_partial: each card contains exactly the points of its cell, the inner void those of the sphere in no solid, for cells numbered as core.py does it and materials with positive numbers. C110_fills_partial: the cells of the file cover space. Violation for a solid of material 0: its density becomes part of the region."
 },
 "C111": {
  "note": "Full statement C111_statement (per kind of file). Proved: it holds if no earlier export asks for PHITS or the model has no inner/outer void (C111_plain_partial), and from the first PHITS export on nothing changes any more (C111_settled_partial). Violated after an export of PHITS for PHITS, MCNP, Serpent, OpenMC and the comment file (witnesses). Orientation of planes across exports is C33."
 },
 "C112": {
  "note": "Proved in full for arguments, files, independence and failure points; partial only because UCARD=0 writes U=0 (C112_zero_violated) although documented otherwise."
 },
 "C113": {
  "note": "The tokens of a text are those of Text/Spec.lean; characters that are no tokens are outside the grammar. Sequences are values: evaluate returns the regrouped sequence."
 },
 "C114": {
  "note": "Proved for cells that use no curved surface with both signs. Violated: with both signs the planes of the sign treated last stand for both; True == 1 in Python, so that `1 5` becomes True when the planes of 5 are dropped; surface types without planes stay as numbers without plane (later KeyError)."
 },
 "C115": {
  "note": "Proved for all surfaces except tori that are elliptical or not along a coordinate axis, and planes whose normal is not of length 1; for these the code is wrong: the two minor radii of an elliptical torus are exchanged, an oblique torus raises UnboundLocalError, and a card `P` with a normal of another length is moved. Real arithmetic."
 },
 "C116": {
  "note": "C116_convex: cells of convex solids are exact. C116_solids_partial/C116_sound_partial: exact when the solids are not inside out, the first face of each group meets all the others of it, and faces of notches share no plane. Each of the three conditions is needed (C116_order_violated: the letter U loses an arm; C116_coplanar_violated: an upside-down T loses a foot because removeElement removes the first face with the same plane number; C116_inverted_violated: an inside-out block). C116_edge: the convexity test; C116_thin_violated: it fails for faces narrower than 0.1 mm."
 },
 "C117": {
  "note": "C117_exclude: the function; C117_void_input: in every run, stated by letting void generation refuse every other list, which changes nothing. Cells are identified by number, comment and solids."
 },
 "C118": {
  "note": "C118_box: holds all boxes with the margin, and no side is farther out than the margin beyond some solid; C118_run: after every run that ends."
 },
 "C119": {
  "note": "C119_runs_partial: without sorting by enclosures; with forceNoOverlap only with facets, without enclosures or with one cell; with simplify full only if all enclosures take part in void generation. Each restriction corresponds to a failure for every model: C119_overlap_violated, C119_full_violated, C119_sort_violated (AttributeError, AttributeError, KeyError). Sorting together with void generation is not covered (see C32)."
 },
 "C120": {
  "status": "partial",
  "note": "False for every program and every model: C120_second_run shows that the second call always stops with AttributeError/TypeError (comment cells in meta_list have no solids), and that it leaves the state as it was; C120_violated refutes the statement."
 },
 "C121": {
  "status": "partial",
  "note": "C121_returns, C121_cell_returns: no exception for any nesting. C121_nested_partial: right box for every nesting whose level-0 parts fit (the cases of C78) and whose intersections are no slivers (at least 2.1 mm wide, or empty); C121_mixed: the union of a forward and a reversed box. C121_cell_partial: cells with curved surfaces, through C114/C115. C121_foil_violated: a cube with a foil of 0.05 mm sticking out gets the box of the cube only."
 },
 "C122": {
  "status": "partial",
  "note": "Composition of C25, C26, C27, C50, C52, C59 with the file theorems C103, C106, C110; with enclosures (C122_enclosures_partial, C122_enclosures_mcnp_partial) also of C61, C62, C63, C124. C122_violated: a point of a long universe box that is in no cell (C27). Missing in the partial theorems: the situations in which C26 (lossy simplification), C27 (boxes longer than 2^17 minimum sizes), C63 and C124 are false, definitions rewritten by forceNoOverlap, and the rounding of the numbers of the surface cards: the sides of the surfaces in the file are a hypothesis (C47-C49, C71, C104)."
 },
 "C123": {
  "status": "partial",
  "note": "Assignments and constructions proved for all states; types and defaults for all histories in which no list is changed in place. Violated: settings.voidExclude.append(5) is not checked; the default lists of voidMat and voidExclude are shared by all Settings objects, so an append to one changes the defaults of the next; a misspelt name in an assignment is accepted. Types are Python's: True is an int, NaN is a float that is not negative."
 },
 "C124": {
  "note": "C124_statement is refuted by C124_boxes_violated: piece_enclosure_split keeps only the first solid of what a half has in common with the piece, so that a U-shaped enclosure loses a leg. C124_boxes_partial: if no half has several solids (and within the 50 rounds of C27), each point of the enclosure is in exactly one void box. C124_void_partial: the same for the void cells, with the solids chosen as in C59 and the complement of C26. The answers of the CAD kernel and the definition of the pieces (C60) are hypotheses."
 },
 "C125": {
  "note": "C125_violated, C125_apart_violated: every suffix is cut from the name: model_v1.2 and model_v1.3 are both written to model_v1.stp. Partial for names without a dot in the middle, or with .stp/.step; C125_forms shows that C125_names_partial and C125_suffix together describe every file name."
 },
 "C126": {
  "note": "C126_violated: universe_box is computed once in __init__, later assignments to box_dimensions or universe_radius are accepted without effect. C126_apart_violated: the default settings object is shared by all converters. C126_radius_violated: the cube of the radius, not the sphere. C126_values_violated: IndexError for short sequences, True as a number."
 },
 "C127": {
  "note": "C127_violated: for the text (1 2:-1 3) (-2:4) half of the cell is missing (C77). Proved for texts without parentheses (C127_flat_partial), for nested ones that are tidy and start bounded (C127_nested_partial), for decks with '#' (C127_hash_partial), and for the file GEOUNED writes (C127_back_partial: regions without parentheses; that the surfaces come back is C104)."
 },
 "C128": {
  "status": "partial",
  "note": "C128_tree, C128_once, C128_within and C128_solids are the whole property on content; the labels of the material parts are proved distinct within one universe (C128_material_label_partial) and the code violates the rest (C128_material_label_violated: container and universe numbers are concatenated without separator). FreeCAD's own making of labels unique is not modelled."
 },
 "C129": {
  "note": "Sound for every honest kernel; exact when cuts leave pieces on both sides and 'not away' means crossing; it returns with all pairs filled; with no surface IndexError. Composition with simplify is partial: the sibling overwriting of C12 and two crossing surfaces that are equal or opposite all over the box (C20) are excluded by hypothesis. The kernel's cuts, distances and points inside solids are assumptions (CutKernel.Honest)."
 },
 "C130": {
  "note": "Proved against the geometric surfaces for planes, cylinders, spheres, aligned cones (one sheet) and tori, and against the written MCNP card through C47. False of cones that are not along a coordinate axis (the card has both sheets, the sign one) and of the inner part of a self-cutting torus (the card has a negative major radius, the sign the positive one): witnesses proved. Exact reals; the rounding of the cosine to 15 places is left out; planes printed by three points are excluded."
 },
 "C131": {
  "note": "Sound for the documented sections; a section with another name is silently ignored (C131_ignored_violated), so the clause that it should be refused is false of the code."
 },
 "C132": {
  "note": "Proved for all texts whose numbers have no zero in front (C132_all_texts: nothing else is left out); with such a zero the loop of processSurfaces does not end, and that of substituteLikeCell stops early (C132_zero_violated)."
 }
}