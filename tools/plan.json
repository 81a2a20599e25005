{
 "C01": [
  "`BoolSequence` trees (AND/OR, int or sub-sequence elements, stored level), methods as functions",
  "meaning under a side assignment; cases on operators, induction on the item list"
 ],
 "C02": [
  "same",
  "induction on fuel and tree"
 ],
 "C03": [
  "same",
  "induction on fuel and tree"
 ],
 "C04": [
  "same",
  "induction on fuel and tree"
 ],
 "C05": [
  "same",
  "induction; semantic restriction lemma"
 ],
 "C06": [
  "same",
  "induction, support"
 ],
 "C07": [
  "same",
  "induction"
 ],
 "C08": [
  "same",
  "induction over the list of elements"
 ],
 "C09": [
  "same",
  "De Morgan by induction"
 ],
 "C10": [
  "`evaluate` with the dictionary as association list",
  "induction over the dictionary using C05"
 ],
 "C11": [
  "`factorize`, `update`, `get_sub_sequence` with the overwrite flagged",
  "invariant of the loop; witness for the defect"
 ],
 "C12": [
  "`simplify` with any iteration order",
  "induction on rounds, C05, C10, C11; witness"
 ],
 "C13": [
  "`simplify` with a constraint table",
  "soundness of the table at the point; witness"
 ],
 "C14": [
  "`get_surfaces_numbers`",
  "induction; semantic independence of other surfaces"
 ],
 "C15": [
  "`substitute_integer_element`",
  "structural induction"
 ],
 "C16": [
  "tokens; `outer_terms`, `redundant`, `set_def`",
  "grammar as specification, induction over derivations; unambiguity"
 ],
 "C17": [
  "writers at token and character level",
  "induction over trees; round trip through C16; wrapped lines through C34"
 ],
 "C18": [
  "`remove_redundant`",
  "induction over derivations"
 ],
 "C19": [
  "pair entries",
  "cases"
 ],
 "C20": [
  "`get_dependence`, `get_constraint_set`",
  "cases on entries, induction over the table"
 ],
 "C21": [
  "`fill_missing_elements`",
  "induction"
 ],
 "C22": [
  "`solid_in_box`",
  "C10, C20"
 ],
 "C23": [
  "`remove_extra_surfaces`",
  "C10, C13"
 ],
 "C24": [
  "`divide_box` over an ordered field",
  "case analysis"
 ],
 "C25": [
  "`VoidBox.split`",
  "case analysis"
 ],
 "C26": [
  "`get_void_complementary`, all modes",
  "composition of C01, C09, C13, C23; witnesses"
 ],
 "C27": [
  "`get_void_def` loop",
  "induction on rounds with the measure of boxes"
 ],
 "C28": [
  "`no_overlapping_cell`",
  "induction over the list of cells"
 ],
 "C29": [
  "`SurfacesDict` as state machine",
  "invariant over all histories"
 ],
 "C30": [
  "same",
  "invariant; witness"
 ],
 "C31": [
  "`sorted_surfaces`",
  "permutation and order"
 ],
 "C32": [
  "numbering, `sort_enclosure`, on object identities",
  "induction over the lists; witnesses"
 ],
 "C33": [
  "all writers one after the other on shared planes and cells",
  "point-wise meaning; witnesses"
 ],
 "C34": [
  "`wrap_line`, `CardLine` on characters",
  "loop invariant; non-termination witness for all fuels"
 ],
 "C35": [
  "`write_geometry` as a list of opened files",
  "case analysis"
 ],
 "C36": [
  "`q_form_cyl` over the reals",
  "`ring`"
 ],
 "C37": [
  "`q_form_cone`",
  "`ring`, trigonometric identity"
 ],
 "C38": [
  "`points_to_coeffs`",
  "`ring`, sign cases"
 ],
 "C39": [
  "comparison tests with tolerances",
  "inequalities; witnesses"
 ],
 "C40": [
  "material and dilution as state machine",
  "induction over calls"
 ],
 "C41": [
  "`check_enclosure`, `set_enclosure_levels`",
  "loop invariant with depth in the parent graph"
 ],
 "C42": [
  "`ParallelPlanes`, `sort_planes`",
  "`List.Perm` by induction"
 ],
 "C43": [
  "`myBox` on a heap of boxes",
  "set reasoning; induction over the expression depth"
 ],
 "C44": [
  "`getRangeData` on characters",
  "induction; witness"
 ],
 "C45": [
  "entries from sampled positions",
  "cases; witness"
 ],
 "C46": [
  "same-surface tests with tolerance 0",
  "vector algebra"
 ],
 "C47": [
  "MCNP and PHITS surface cards",
  "real geometry of each card as specification"
 ],
 "C48": [
  "OpenMC XML and Python",
  "same"
 ],
 "C49": [
  "Serpent",
  "same"
 ],
 "C50": [
  "graveyard cells",
  "real geometry"
 ],
 "C51": [
  "box definition",
  "real geometry"
 ],
 "C52": [
  "void generation from boxes to cells",
  "composition of C25, C26, C27, C51, C59, C60"
 ],
 "C53": [
  "`check_enclosure` on geometry",
  "witnesses"
 ],
 "C54": [
  "comments of void cells",
  "induction"
 ],
 "C55": [
  "summary file",
  "induction; witness"
 ],
 "C56": [
  "`process_cones`, `add_cone_plane`",
  "point-wise meaning; witness"
 ],
 "C57": [
  "`trim`, `cut_line` on characters",
  "loop invariant; non-termination witness"
 ],
 "C58": [
  "in-place insertion and sign change on a heap",
  "simulation by the value model with multiplicity of places"
 ],
 "C59": [
  "`VoidBox.__init__`, `remove_extra_comp`",
  "alignment invariant; witness"
 ],
 "C60": [
  "`cellDef`",
  "parsing (C16) of the text built, then meaning of C01, C09"
 ],
 "C61": [
  "`assignEnclosure`, `select_solids`",
  "ancestors in the hierarchy (C41); witness"
 ],
 "C62": [
  "`void_generation`, `update_void_list`",
  "induction over the enclosures"
 ],
 "C63": [
  "`void_generation` as a whole",
  "C41, C61, C62; unique innermost enclosure; witness"
 ],
 "C64": [
  "`remove_hash`, `complementary` on tokens",
  "induction on the grammar with `#`, and on the depth of mentions"
 ],
 "C65": [
  "`set_filters`, `selectCells` of both readers on the history of calls",
  "state of the filters characterised by the last calls (induction on the history), then the nine branches"
 ],
 "C66": [
  "`GetLevelStructure`, `getSubUniverses`, choice of universes in `GetFilteredCells`",
  "the loop over levels is breadth-first search: induction on the rounds; induction on the rank of nested universes"
 ],
 "C67": [
  "`BuildUniverseCells` with the shapes kept, `build_universe`, `build_container`; solids are sets of points, the CAD kernel a parameter",
  "induction on the recursion and on the list of cells, with the invariant that universes not yet visited have no shape"
 ],
 "C68": [
  "cards as records with token texts, `Rev/Cards.lean`: `setExplicitCellDefinition`, `remove_hash`, `processSurfaces`, `substituteLikeCell`; specification `Rev/CardsSpec.lean` (`Resolves`, `InDeck`, `RightCells`)",
  "loop invariants per stage: entries = resolution of LIKE; texts clean of # and equivalent (C64); numbers of surfaces dense, dictionary only grows; counterexamples by evaluation"
 ],
 "C69": [
  "the objects kept between builds (texts changed in place, cells replaced when nothing is filtered), the loop over the calls",
  "induction over the calls with the invariant that every text is the one of the card or an equivalent one without #; renaming is then the identity; counterexamples by evaluation"
 ],
 "C70": [
  "GetCell: one card alone, renaming of its surfaces",
  "the text without # is renamed to an equivalent one (as C68); counterexamples by evaluation"
 ],
 "C71": [
  "`RSurf/Model.lean`: `makeSurf`, `primLoop` (with the variables that outlive a pass), `surfaceSide`; specification `RSurf/Spec.lean` (`cardMeaning`)",
  "per card: the computed side is the sign of the manual's equation (angles by arccos/arctan monotony); induction over the list; counterexamples by computation"
 ],
 "C72": [
  "`RSurf/Model.lean`: `transform`, `originalAfter`, `readSurfaces`",
  "a map that keeps distances keeps dot products, hence the computed number; induction over the file"
 ],
 "C73": [
  "`RSurf/Model.lean`: `getTransMatrix`, `inlineMatrix`; specification `trMeaning`",
  "case distinction over the forms, linear algebra by components"
 ],
 "C74": [
  "`gq2params`, `sq2params`, `conicSurface`, `getGQAxis`, the five `get_*_parameters` and the scaling of GQ/SQ; `numpy.linalg.eigh` is an argument constrained by its contract (`RSurf/Quad.lean`)",
  "uniqueness of eigenvalues, completeness of an orthonormal triple, then one sign computation per family; for the violated families an explicit point for every member of the family"
 ],
 "C75": [
  "`XmlInput.GetSurfaces`, `Get_primitive_surfaces` and `gq2cyl` of `XMLinput.py`; `eigh` is a function argument with its contract (`RSurf/Xml.lean`), shown to exist by the spectral theorem (`RSurf/QuadExists.lean`)",
  "elements that are not quadrics reduce to the MCNP cards of C71; quadrics by sign computations in the eigenbasis; induction over the elements"
 ],
 "C76": [
  "composition of the writers of C47/C48 with the readers of C71, C74 and C75 (`RSurf/Round.lean`)",
  "the quadric of an oblique cylinder or cone is brought to its principal axes by an explicit orthonormal base; then C47/C48 and C71/C74/C75; induction over the list"
 ],
 "C77": [
  "`BuildSolid`, `BuildDepth`, `BuildSolidParts`, `filterparts`, `joinBase`, `SplitSolid`, `getSubCell`, `build_BoundBox`, `makeBox`, `evaluate`, with the remembered sides of surfaces; slicing, fusing, boxes and inner points are the parameter `Kernel` with the assumptions `Right` (`Rev/SolidSpec.lean`, `Rev/Solid.lean`)",
  "invariant of a part (its solid is on the remembered side of each remembered surface); induction over the surfaces that cut and over the recursion depth, with a frame condition for surfaces not used; witnesses with a kernel for finitely many points, proved right"
 ],
 "C78": [
  "`isInside`, `get_box_orientation`, `plane_intersect` (with the lagging index `j`), `plane_boundary`, `line_boundary`, `sort_point`, `remove_close_points`, `remove_points`, `get_component_boundBox`, `get_boundBox` over any ordered field, exact plane intersections",
  "linear programming: every linear function on a bounded polyhedron has its least value at a vertex (three moves along explicit directions); all vertices are listed (at most two faces are met by a line); merged points stay within 0.1 per axis; witnesses over ℚ evaluated by the kernel"
 ],
 "C79": [
  "`get_cards`, `get_cards_from_input` (generator as the list of what it yields), `is_commented`, `is_fc_card`, `is_blankline`, `replace_tab`, `Card.get_input` on lists of characters (`Card/Model.lean`); specification of decks as a grammar (`Card/Spec.lean`)",
  "the state of the loop (lines kept, comment lines kept) after each prefix of a block; induction over cards and continuation lines; tabs by induction over the column; witnesses evaluated by the kernel"
 ],
 "C80": [
  "`CellCardString` (constructor, comments, split into geometry and parameters, `TRCL`, `U`, `FILL`, `MAT`, name) with each regular expression as a backtracking-free matcher, and `Card.get_values` of a cell (`CellText/Model.lean`); grammar of cell cards and what they say (`CellText/Spec.lean`)",
  "each matcher characterised on prefixes; where a key can match inside a card, by induction over the list of parameters; witnesses evaluated by the kernel"
 ],
 "C81": [
  "`_protect_nums`, `_split_surface`, `_split_data`, `_parse_tr`, `_get_int` on lists of characters, and the loops of `__getTransList__` and `GetSurfaces` over the cards of C79 (`SurfText/Model.lean`); words and cards as a grammar (`SurfText/Spec.lean`)",
  "words are independent of lines and blanks; a repetition cannot reach into the first word; the number of a TR card is the first digit of the text, so the replacement keeps the words; induction over the cards of the deck"
 ],
 "C82": [
  "`split_bop` branch by branch (`Decom/Model.lean: splitBop`), the kernel a function of the tolerance, the recursion limited by the stack",
  "`bop_down`, `bop_up`: the tolerances tried are t·10^k; first success in the order 0,-1,-2,…,1,2,…; endless recursion for 0 < t < 1e-13 by induction on the stack"
 ],
 "C83": [
  "the whole of `SplitSolid` over an abstract kernel (`Decom/Model.lean`); compounds are lists of solids; specification `Divides` in `Decom/Spec.lean`",
  "an additive weight (indicator of a point, volume) conserved by each cut is conserved by each loop up to dropped pieces; the dropped pieces are exhibited; witness of a solid that vanishes"
 ],
 "C84": [
  "`_decompose_solids` and the error numbers of all stages",
  "induction over the cells; error 0 implies the 1 % test of the last solid; two witnesses of unreported losses"
 ],
 "C85": [
  "the `while True` loops with a number of rounds",
  "a well-founded piece relation bounds the rounds; a positive lower bound on the volume of pieces makes it well-founded; witness: a kernel producing empty pieces"
 ],
 "C86": [
  "`same_faces`: list scan with the touching test as a parameter (`Face/Model`)",
  "paths through increasing indices; witness for the chain 0-2-1-3"
 ],
 "C87": [
  "`same_torus_surf`, `separate_surfaces` with the two tests as parameters",
  "induction on the work list; connected components as reflexive-transitive closure"
 ],
 "C88": [
  "`merge_periodic_uv` on lists of rational ranges, length of a turn a parameter",
  "invariant of the merging loops; two witnesses"
 ],
 "C89": [
  "`get_intervals` on the sorted nodes",
  "nodes as an alternating count; induction over the jumps of the search"
 ],
 "C90": [
  "`get_u_value_boundary`, `get_closed_ranges`",
  "on top of C89; witness with a range past the seam"
 ],
 "C91": [
  "`gen_torus_annex_u_planes` over the reals with sin and cos",
  "orthonormal frames, half sum and half difference of the angles"
 ],
 "C92": [
  "`gen_torus_annex_v_surface` over the reals",
  "case analysis plane/cylinder/cone in the meridian plane; witnesses"
 ],
 "C93": [
  "`gen_plane_cylinder`, `gen_plane_cone`, `sign_plane` over the reals",
  "the plane function equals a positive constant times cos(u-m)-cos h"
 ],
 "C94": [
  "`load_cad`, `fuse_meta_obj`, `joinEnvelopes`, label patterns on texts; elements as labels of the branch and solids",
  "done ++ todo invariant of the loop over elements; flattened solids invariant; witnesses by evaluation"
 ],
 "C95": [
  "as C94",
  "numbers follow the places while no enclosure is fused; witness"
 ],
 "C96": [
  "regular expressions as searches on lists of characters",
  "search = first place, upward loop = nearest label; witnesses"
 ],
 "C97": [
  "`join_meta_lists` on objects with a table of numbers, the enclosures being the same objects",
  "invariant: numbers increase; witnesses"
 ],
 "C98": [
  "`del l[k]` for the sorted indices, removal of cells without solids",
  "descending deletions keep lower places; witnesses"
 ],
 "C99": [
  "`extract_materials`, `int` and `float` parameters",
  "induction over the lines; witness"
 ],
 "C100": [
  "heap of configuration objects, instances as references, operations",
  "invariant: no two sections hold the same object; witness"
 ],
 "C101": [
  "`from_json` on that heap, file as list of keys and values",
  "induction over the keys; witness"
 ],
 "C102": [
  "`McnpFile/Model.lean`: the characters of the whole file",
  "line by line: every line is first line, continuation or comment; blocks as in C79; regions through C17/C34; witnesses"
 ],
 "C103": [
  "`McnpFile/Model.lean` (writer) composed with `Card/Model.lean` and `CellText/Model.lean` (reader)",
  "deck of C102 + cards of C79 + cell text of C80: each card is laid out as the reader's grammar wants"
 ],
 "C104": [
  "`McnpFile/Model.lean` (writer) composed with `Card/Model.lean` and `SurfText/Model.lean` (reader)",
  "deck of C102 + cards of C79 + surface text of C81; data cards never start with `tr`"
 ],
 "C105": [
  "`OmcFile/Model.lean`: the characters of the XML file; `OmcFile/XmlSpec.lean`: reader of XML",
  "each line is a tag that the reader takes; regions through C17; witnesses"
 ],
 "C106": [
  "`OmcFile/Read.lean`: XMLParser on elements, composed with the writer of C105",
  "C105 + digits read back + region text unchanged; witnesses"
 ],
 "C107": [
  "`OmcFile/Model.lean`: the characters of the script; `OmcFile/PySpec.lean`: Python tokens",
  "line by line: tokens of each statement; names by induction over the statements; witness"
 ],
 "C108": [
  "`SerpFile/Model.lean`: the characters of the Serpent file; `SerpFile/Spec.lean`: words and cards of Serpent",
  "each part of the file has its words whatever follows; regions through C17/C34; witnesses"
 ],
 "C109": [
  "`PhitsFile/Model.lean`: the characters of the PHITS file and the cells as the writer leaves them; `PhitsFile/Spec.lean`: sections, comments and cards of PHITS, labels in the STEP file",
  "each part of the file has its lines whatever follows; regions through C17/C34; witnesses"
 ],
 "C110": [
  "`PhitsFile/UniSpec.lean`: the points of a cell card, with `#n` looked up in the file",
  "the numbers of the solids are the range that is written (numbering of core.py as hypothesis); meaning of the definitions through C17; witness"
 ],
 "C111": [
  "`Session/Model.lean`: histories of exports over a disk and the shared cells",
  "the PHITS writer changes only inner and outer void, once (case analysis of the writer); induction on the history; witnesses for each format"
 ],
 "C112": [
  "`Session/Model.lean`: checks of the arguments, the seven files in order; `Session/Spec.lean`: kinds of files",
  "the function is a run over the list of kinds; induction on it with the file names distinct; witness for UCARD=0"
 ],
 "C113": [
  "`RBool/Model.lean`: `BoolSequence(text)`, `evaluate` and `get_complementary` of the GEOReverse version of the boolean class, token by token",
  "texts by the grammar of `Text/Spec.lean`; strong induction on the number of tokens; repeated `evaluate` by induction on the history"
 ],
 "C114": [
  "`Poly/Model.lean`: `quadric_to_plane`, `plane_definition`, `change_surf`, and the operations of the GEOReverse boolean class they use; the planes of a surface are a parameter",
  "monotonicity of the definition in its literals, by induction on the definition; one step per replaced surface, by induction on the list of surfaces"
 ],
 "C115": [
  "`Shape/Model.lean`: the functions `*_to_planes`, `get_orto_axis` and `convert_to_planes`, over the reals",
  "an orthonormal frame from `get_orto_axis` (Gram determinant), then inequalities for every kind of surface; cells by composition with C114"
 ],
 "C116": [
  "`Facet/Model.lean`: `commonEdge`, `isConvex`, `removeElement` and `set_definition` of the option Facets; `get_id` and `is_inverted` are parameters",
  "invariant of the loop over the faces left, by induction on their number; the boolean part through C01; witnesses are prisms over the rationals"
 ],
 "C117": [
  "`Driver/Model.lean`: `exclude_cells` and the run of `CadToCsg.start`, with the parts called as parameters (`Kit`)",
  "induction on the list; phases before void generation keep number, comment and solids of every cell"
 ],
 "C118": [
  "`Driver/Model.lean`: `_get_geometry_bounding_box`, `start`",
  "induction with the hull of the boxes seen so far"
 ],
 "C119": [
  "`Driver/Model.lean`: `start` phase by phase; objects shared by meta_list and enclosure_list as places of a heap",
  "definitions once made are never lost (`Grow`), loop by loop; numbering from C32; the negations follow from cells kept without definition"
 ],
 "C120": [
  "as C119",
  "every run that ends has put a comment cell without solids in the list; refuted"
 ],
 "C121": [
  "`Nest/Model.lean`: `myBox.add`, `mult`, `build_box_depth`, `get_boundBox` on nested definitions, with the level-0 box of C78",
  "induction on the definition: the box of every part is right up to the tolerance 0.1 per axis (`Near`), the operations keep it, the enlargement by 20 % pays for it; cells with curved surfaces through C114 and C115"
 ],
 "C122": [
  "`Whole/`: a structure with what one conversion made (cells, boxes, void cells, graveyard); its fields are results of the models of C25, C26, C27, C50, C52, C59, and the files of C102, C106, C110; with enclosures `Whole/Encl.lean` (C62, C63, C124)",
  "case analysis on universe box, solids, sphere with the theorems of the parts; exactly-one transported along permutations and pointwise relations to the cards read"
 ],
 "C123": [
  "`Setup/`: the four classes as tables of parameters with the form of their setter and their default, a heap of lists, histories of operations",
  "each setter accepts exactly the documented type (table against an independent table from the docstrings); invariant over histories; violations by short histories"
 ],
 "C124": [
  "`Void/PieceModel.lean`: `VoidBox` with a piece of an enclosure, `split`, `piece_enclosure_split`; the CAD kernel (distance, volume, common part, bounding box) is a parameter with laws at a point",
  "invariant of the loop of C27 over reached boxes; witness: a U of three boxes; composition with C26 and C59"
 ],
 "C125": [
  "`RCore/NameModel.lean`: export_cad on lists of characters, with name and suffix of pathlib",
  "induction on the name for the parts between slashes and the last dot; case analysis on the form of the file name; counterexamples by evaluation"
 ],
 "C126": [
  "`RCore/SetModel.lean`: BoxSettings objects and converters as references in a state, statements of a session, exceptions as values",
  "invariant over sessions: a converter has the box of its settings, settings that were not resized have the box of their values; counterexamples by evaluation"
 ],
 "C127": [
  "`Whole/BackModel.lean`: remove_hash, remove_redundant of GEOReverse, BoolSequence(text), build_BoundBox, buildShape one after another",
  "C64, C18, C113 and C77 composed: lemmas that the definition read from a text has no empty list, exactly the surfaces written and, without parentheses, is flat (induction over set_def); with C103 the round trip CAD to MCNP to CAD; negation by the text of `C77_join_violated`"
 ],
 "C128": [
  "`RCore/TreeModel.lean`: makeTree and the loop of export_cad on a document that is the list of its objects, referred to by their places",
  "induction on the nesting with an invariant of the loop over the content (what was appended, which references wait in the dictionary of materials); the labels by injectivity of decimal numbers; a clash of two material labels as counterexample"
 ],
 "C129": [
  "`CTable/BuildModel.lean`: split_solid_fast, the loops of build_c_table_from_solids with their variables that are not reset, over a kernel given by its answers",
  "an invariant of the entries carried through both loops, the transposition and the filling of the missing pairs (`build_ent`); exactness by tracing each allowed combination back to a piece; composition with C13, C20, C21 and C45; an instance on the points of a line"
 ],
 "C130": [
  "`Geom/Sign.lean`: check_sign over the reals",
  "for each kind of surface, the sign compared with the region of the surface (CardSpec), then with the card through C47; witnesses for the far sheet of an oblique cone and for the inner part of a torus"
 ],
 "C131": [
  "`RCore/Cli*.lean`: main of geouned_csgtocad as a list of statements with keyword arguments, each of which may raise",
  "the statements are computed from what the sections give (CliSpec); induction on the run for failures; permutations of a dictionary; the selection with C65; a misnamed section as the witness"
 ],
 "C132": [
  "`Rev/Renum*.lean`: the loops that rename surfaces and `Cline.replace`, on characters, with the position kept; an endless loop is a loop that does not end for any number of rounds",
  "induction on the pieces of the text (separators and numbers); every text is such pieces; a number with a zero in front as the witness; the loop on characters follows the loop on tokens of `Rev/Cards.lean` (C132_tokens)"
 ]
}