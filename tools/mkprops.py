#!/usr/bin/env python3
"""Writes properties.jsonl (plain text generator: keeps the JSON well formed)."""
import json
P=[]
def p(title, statement, quantifier, why, anchors):
    P.append(dict(id=f"C{len(P)+1:02d}", title=title, statement=statement, quantifier=quantifier, why_tests_cant=why, anchors=anchors))
BF="src/geouned/GEOUNED/utils/boolean_function.py"
BS="src/geouned/GEOUNED/utils/boolean_solids.py"
FN="src/geouned/GEOUNED/utils/functions.py"
VB="src/geouned/GEOUNED/void/void_box_class.py"
VO="src/geouned/GEOUNED/void/void.py"
VF="src/geouned/GEOUNED/void/void_functions.py"
CO="src/geouned/GEOUNED/core.py"
WF="src/geouned/GEOUNED/write/functions.py"
SF="src/geouned/GEOUNED/write/string_functions.py"
CD="src/geouned/GEOUNED/conversion/cell_definition.py"
LF="src/geouned/GEOUNED/loadfile/load_functions.py"
tree="a cell expression is a tree of unbounded width and depth; tests only sample a few small trees"
p("append is conjunction/disjunction",
  "Appending any sequence of items (surface numbers, booleans, expressions) to an AND expression makes it describe the intersection of what it described before with every appended item; for an OR expression, the union. This includes appending s to an expression that already holds s or -s.",
  "every well-formed expression not already reduced to a bare boolean, every list of items, every assignment of sides to surfaces",
  tree, [f"{BF}:BoolSequence.append"])
p("clean keeps the region",
  "clean() (with or without self_level) removes sub-expressions already reduced to True/False and never changes the region described; the boolean it returns, if any, is the value of the region.",
  "every expression tree, every assignment", tree, [f"{BF}:BoolSequence.clean"])
p("group_single keeps the region",
  "group_single() regroups loose surface numbers and one-element sub-expressions without changing the region described.",
  "every well-formed expression tree, every assignment, including repeated surface numbers removed while iterating", tree, [f"{BF}:BoolSequence.group_single"])
p("check only reports real constants",
  "check() returns True only if the expression holds at every point, False only if it holds nowhere, and leaves the region unchanged.",
  "every well-formed expression tree, every assignment", tree, [f"{BF}:BoolSequence.check"])
p("substitute by a boolean is restriction",
  "substitute(var, True/False) leaves an expression that describes, at every point, what the original describes when surface var is forced to that side.",
  "every well-formed expression, every surface number, both booleans, every assignment", tree, [f"{BF}:BoolSequence.substitute"])
p("substitute removes the variable",
  "After substitute(var, True/False) the surface var no longer occurs in the expression.",
  "every expression tree and surface number", tree, [f"{BF}:BoolSequence.substitute"])
p("substitute by a surface is renaming",
  "substitute(var, n) with n another signed surface leaves an expression describing the original with var replaced by n (and -var by -n).",
  "every well-formed expression, every var, every non-zero n, every assignment", tree, [f"{BF}:BoolSequence.substitute"])
p("join_operators keeps the region",
  "join_operators() merges nested equal operators and unwraps single children without changing the region described.",
  "every well-formed expression tree, every assignment, every recursion limit", tree, [f"{BF}:BoolSequence.join_operators"])
p("get_complementary is the complement",
  "get_complementary() returns an expression that holds exactly where the original does not, and does not change the region of the original.",
  "every well-formed expression built of surfaces, every assignment", tree, [f"{BF}:BoolSequence.get_complementary"])
p("evaluate is sound for partial knowledge",
  "evaluate(values) returns True (False) only if the expression is true (false) at every point that agrees with the known side values; otherwise the returned expression agrees with the original at every such point.",
  "every well-formed expression, every finite dictionary of known values (None entries are unknown), every assignment that agrees with it", tree, [f"{BF}:BoolSequence.evaluate"])
p("factorize keeps the region",
  "Shannon factorisation on a surface leaves the region unchanged at every point that is consistent with the constraint sets given for the two sides of the surface.",
  "every well-formed expression, surface, pair of constraint sets (possibly absent), every assignment consistent with them", tree, [f"{BF}:BoolSequence.factorize", f"{BF}:BoolSequence.update", f"{BF}:BoolSequence.get_sub_sequence"])
p("simplify without table keeps the region",
  "simplify() never changes the region a cell describes, whatever the expression.",
  "every well-formed expression, every assignment, every iteration order of surfaces, every recursion limit", tree, [f"{BF}:BoolSequence.simplify", f"{BF}:BoolSequence.simplify_sequence", f"{BF}:BoolSequence.do_factorize"])
p("simplify with a constraint table keeps the region inside the box",
  "simplify(CT) leaves the region unchanged at every point of the box the constraint table was built for.",
  "every well-formed expression, every table sound for the box, every point of the box", "table x expression space is unbounded; corruption shows only for particular sub-expression shapes", [f"{BF}:BoolSequence.simplify", f"{BS}:ConstraintTable.get_constraint_set"])
p("get_surfaces_numbers is the support",
  "get_surfaces_numbers() returns exactly the surfaces that occur in the expression, so two points on the same side of all of them are both in or both out of the cell.",
  "every expression, every pair of assignments", tree, [f"{BF}:BoolSequence.get_surfaces_numbers"])
p("insert_in_sequence adds an ancillary surface everywhere",
  "insert_in_sequence(seq, s, n, op) leaves an expression in which every occurrence of the signed surface s means (s op n) and every other occurrence is untouched.",
  "every expression, every signed surface and new surface, both operators, every assignment", tree, [f"{BF}:insert_in_sequence", f"{BF}:substitute_integer_element"])
p("parsing an expression string means what MCNP syntax means",
  "BoolSequence(string) describes the region that the MCNP syntax (blank = intersection binds tighter than ':' = union, parentheses group) gives to the string.",
  "every syntactically valid cell definition of any nesting and length", "unbounded nesting of parentheses", [f"{BF}:BoolSequence.set_def", f"{BF}:outer_terms", f"{BF}:redundant", f"{BF}:is_integer"])
p("written cell definitions read back as the same region",
  "The cell definition text written for MCNP (and for PHITS, Serpent, OpenMC XML in their syntax) denotes exactly the region of the cell's expression.",
  "every cell expression, every output format, every assignment", tree, [f"{WF}:write_sequence_mcnp", f"{WF}:write_sequence_phits", f"{WF}:write_sequence_serpent", f"{WF}:write_sequence_omc_xml", f"{WF}:write_sequence_omc_py"])
p("removing redundant parentheses keeps the region",
  "The text clean-up that removes redundant parentheses from a written cell definition never changes the region it denotes.",
  "every well-formed definition string", "unbounded nesting", [f"{SF}:remove_redundant", f"{SF}:redundant"])
p("constraint table transposition",
  "Reading the constraint of surface pair (a,b) or of (b,a) gives the same information: transposing a table entry twice gives it back and each transposed entry allows exactly the same combinations of sides.",
  "every table entry", "the entries come from arbitrary geometry", [f"{BS}:CTelement.get_transpose", f"{BS}:ConstraintTable.fill_missing_elements"])
p("constraint sets only state facts true in the box",
  "get_constraint_set(s) lists, for each side of s, only side values that hold at every point of the box on that side; it reports a side as impossible only if no point of the box lies on it.",
  "every table whose entries are sound for the box, every surface, every point of the box", "quantifies over all tables and all points", [f"{BS}:CTelement.get_dependence", f"{BS}:ConstraintTable.get_constraint_set"])
p("filling the table from diagonals is sound",
  "The entry deduced for a pair of surfaces from their individual positions with respect to the box never excludes a combination of sides that occurs in the box.",
  "every pair of diagonal entries sound for the box, every point of the box", "finite table but unbounded set of boxes", [f"{BS}:combine_diag_elements", f"{BS}:ConstraintTable.fill_missing_elements"])
p("solid_in_box is sound",
  "solid_in_box(cell) answers 'covers the box' only if every point of the box is in the cell and 'outside' only if none is.",
  "every expression, every sound table (diagonal or full), every point", "unbounded expressions and tables", [f"{BS}:ConstraintTable.solid_in_box"])
p("remove_extra_surfaces keeps the region inside the box",
  "remove_extra_surfaces(cell, table) returns an expression that agrees with the cell at every point of the box.",
  "every cell expression (union of sub-cells), every sound table, every point of the box", "unbounded expressions and tables", [f"{BS}:remove_extra_surfaces"])
p("box subdivision covers the box",
  "Dividing a box into 8 sub-boxes (when looking for a point inside a solid) loses no point of the box and the sub-boxes overlap only on their faces; each returned centre lies in its sub-box.",
  "every box (real bounds)", "continuum of boxes and points", [f"{BS}:divide_box"])
p("void box split covers the box",
  "Splitting a void box yields boxes that together cover the parent and overlap only on the cutting plane, whichever direction is cut; the cut always lies inside the parent.",
  "every box, every minimum size, every choice of cut surface", "continuum of boxes", [f"{VB}:VoidBox.split"])
p("void cell is the box minus the solids",
  "The definition generated for a void box holds at exactly the points of the box that are in none of the solids whose cells intersect the box.",
  "every box definition, every list of solid definitions, every point", "unbounded lists of solids", [f"{VB}:VoidBox.get_void_complementary"])
p("void generation never drops a box",
  "When void generation finishes, every initial box is covered by void cells produced: no box still to be processed is discarded.",
  "every input set of boxes and every splitting history", "unbounded splitting histories", [f"{VO}:get_void_def"])
p("no-overlap option partitions the union",
  "With forceNoOverlap, after processing, no point is in two cells and the union of the cells is unchanged.",
  "every list of cell definitions, every point", "unbounded lists of cells", [f"{CD}:no_overlapping_cell"])
p("surface numbers are unique and consecutive",
  "After any sequence of surface registrations the stored surfaces have distinct numbers, exactly startSurf .. startSurf+n-1, and a registration that finds an equal surface returns the number of that surface without adding one.",
  "every registration history of surfaces of every kind", "unbounded histories", [f"{FN}:SurfacesDict.add_plane", f"{FN}:SurfacesDict.add_cylinder", f"{FN}:SurfacesDict.add_cone", f"{FN}:SurfacesDict.add_sphere", f"{FN}:SurfacesDict.add_torus"])
p("get_surface finds the registered surface",
  "For every history of registrations, deletions and look-ups, looking up a number returns the surface registered with it, or nothing if none is; look-ups never fail with an exception because of earlier look-ups or deletions.",
  "every interleaving of add, del and get operations", "unbounded histories; the look-up keeps a hidden last-hit cache", [f"{FN}:SurfacesDict.get_surface", f"{FN}:SurfacesDict.del_surface"])
p("all surfaces are written, in number order",
  "The surface block written contains every registered surface exactly once, in increasing number.",
  "every registry content", "unbounded", ["src/geouned/GEOUNED/write/mcnp_format.py:McnpInput.__sorted_surfaces__"])
p("cell labels are unique and consecutive",
  "Solid cells receive labels startCell, startCell+1, ... in list order, void and graveyard cells continue after them, and no two written cells share a label.",
  "every list of solids (including null cells and enclosures), every startCell", "unbounded lists", [f"{CO}:CadToCsg.start", f"{VF}:update_void_list"])
p("plane sign normalisation keeps every cell",
  "Re-orienting axis-aligned planes before writing changes plane and cell definitions together, so every written cell denotes the same region; exporting again (same or other format) writes the same region again.",
  "every model, every sequence of exports", "unbounded models, histories of exports", ["src/geouned/GEOUNED/write/mcnp_format.py:McnpInput.__simplify_planes__", f"{WF}:change_surf_sign"])
p("wrapped lines lose nothing and fit",
  "Wrapping a long cell definition keeps the sequence of tokens and every written line fits the line length, provided each token fits.",
  "every definition string", "unbounded strings", [f"{SF}:CellString.wrap_line", f"{WF}:CardLine.extend"])
p("unsupported output formats are rejected before writing",
  "Export with an unknown output format raises and writes no file; with known formats exactly the files of those formats are written.",
  "every list of format names", "all lists of strings", ["src/geouned/GEOUNED/write/write_files.py:write_geometry"])
p("quadric coefficients of a cylinder",
  "The ten general quadric coefficients written for a cylinder vanish exactly on the cylinder and are negative inside, positive outside.",
  "every axis (unit vector), position, radius, every point (real arithmetic)", "continuum", ["src/geouned/GEOUNED/utils/q_form.py:q_form_cyl"])
p("quadric coefficients of a cone",
  "The ten general quadric coefficients written for a cone vanish exactly on the double cone of the given apex, axis and half-angle and are negative inside.",
  "every axis (unit vector), apex, tangent, every point (real arithmetic)", "continuum", ["src/geouned/GEOUNED/utils/q_form.py:q_form_cone"])
p("three-point planes",
  "The plane coefficients computed from three points describe a plane through the three points, with the sign convention of MCNP (origin, or +Z/+Y/+X infinity, on the positive... negative side as the manual states).",
  "every triple of non-collinear points (real arithmetic)", "continuum", ["src/geouned/GEOUNED/utils/basic_functions_part1.py:points_to_coeffs"])
p("same-surface tests are symmetric",
  "Whether two surfaces are considered the same does not depend on the order in which they are compared, so numbering does not depend on which one is registered first.",
  "every pair of surfaces of the same kind and every tolerance setting", "continuum", ["src/geouned/GEOUNED/utils/basic_functions_part2.py:is_same_plane", "src/geouned/GEOUNED/utils/basic_functions_part2.py:is_same_cylinder", "src/geouned/GEOUNED/utils/basic_functions_part2.py:is_same_cone", "src/geouned/GEOUNED/utils/basic_functions_part2.py:is_same_sphere", "src/geouned/GEOUNED/utils/basic_functions_part2.py:is_same_torus"])
p("cell density is nominal density times dilution",
  "Whatever the order of setting material and dilution, the density written for a cell is the material density times the dilution factor, and void cells have none.",
  "every sequence of set_material / set_dilution calls", "unbounded call sequences", [f"{FN}:GeounedSolid.set_material", f"{FN}:GeounedSolid.set_dilution"])
p("enclosure hierarchy checks",
  "If the enclosure check accepts a model, each enclosure has exactly one chain of parents ending at the top level (no cycles, no missing parent), and the level assignment terminates and puts each enclosure one level below its parent.",
  "every list of enclosures and parent identifiers", "arbitrary parent graphs", [f"{LF}:check_enclosure", f"{LF}:set_enclosure_levels"])
p("parallel-plane grouping is a permutation",
  "Grouping and sorting planes before cutting keeps each plane exactly once.",
  "every list of planes", "unbounded lists", ["src/geouned/GEOUNED/decompose/decom_one.py:sort_planes", "src/geouned/GEOUNED/decompose/decom_one.py:parallel_planes"])
p("reverse conversion: bounding-box algebra is sound",
  "Union and intersection of oriented bounding boxes (box contains the region, or the region's complement) always give a box that bounds the union/intersection of the regions.",
  "every pair of oriented boxes and every pair of regions they bound", "continuum", ["src/geouned/GEOReverse/Modules/Utils/boundBox.py:myBox.add", "src/geouned/GEOReverse/Modules/Utils/boundBox.py:myBox.mult"])
p("reverse conversion: cell range parsing",
  "A range string 'a,b:c,...' selects exactly the numbers listed and all numbers of the closed intervals; ill-formed strings are rejected as a whole.",
  "every string", "unbounded strings", ["src/geouned/GEOReverse/Modules/processInp.py:getRangeData"])
p("pair entries of the constraint table exclude only what does not occur",
  "The entry of the table for a pair of surfaces, built from the pieces into which the box is cut, excludes no combination of sides that some piece has; it does not depend on surfaces treated before.",
  "every list of pieces on each side, every reported position, every left-over value of the loop variables", "unbounded piece lists, history dependent", ["src/geouned/GEOUNED/utils/boolean_solids.py:build_c_table_from_solids"])
p("identified surfaces are the same surface",
  "Two surfaces which the comparison accepts however small the tolerances are set bound the same region on the same side (for planes: up to the exchange of sides that the code announces through its opposite-axes test).",
  "every pair of planes, cylinders, spheres, tori and cones with unit axes, every point (real arithmetic)", "continuum, limit over all tolerances", ["src/geouned/GEOUNED/utils/basic_functions_part2.py:is_same_plane", "src/geouned/GEOUNED/utils/basic_functions_part2.py:is_same_cylinder", "src/geouned/GEOUNED/utils/basic_functions_part2.py:is_same_cone", "src/geouned/GEOUNED/utils/basic_functions_part2.py:is_same_sphere", "src/geouned/GEOUNED/utils/basic_functions_part2.py:is_same_torus", "src/geouned/GEOUNED/utils/basic_functions_part1.py:is_parallel", "src/geouned/GEOUNED/utils/basic_functions_part1.py:is_opposite"])
p("MCNP and PHITS surface cards describe the surfaces",
  "For every surface whose axis the tolerances do not round, a card exists, is a card of the manual, and describes in centimetres the same surface with the same sides (cones along a coordinate axis: the sheet the axis points to; three-point planes: the sense convention of the code).",
  "every plane, cylinder, cone, sphere and torus, every tolerance setting, both plane formats, every point (real arithmetic)", "continuum of surfaces and points", ["src/geouned/GEOUNED/write/functions.py:mcnp_surface", "src/geouned/GEOUNED/write/functions.py:phits_surface"])
p("OpenMC surface definitions describe the surfaces",
  "The type/coefficients written in XML and the class/keywords written in Python exist in OpenMC and describe in centimetres the same surface with the same sides.",
  "every surface as above, with and without quadric form", "continuum of surfaces and points", ["src/geouned/GEOUNED/write/functions.py:open_mc_surface"])
p("Serpent surface cards describe the surfaces",
  "Each Serpent surf card is readable (identifier, type, parameters), carries the surface's number, and describes in centimetres the same surface with the same sides.",
  "every surface as above", "continuum of surfaces and points", ["src/geouned/GEOUNED/write/functions.py:serpent_surface"])
V = "src/geouned/GEOUNED/void"
p("graveyard cells close the model",
  "Set_graveyard_cell returns two cells: the inside of the graveyard sphere without the universe box, and the outside of the sphere. The sphere holds the whole box, so every point of space (on no surface) is in exactly one of the universe box and the two cells.",
  "every universe box with volume, every registry that holds the box planes with either orientation, every point (real arithmetic)", "continuum of boxes and points", [f"{V}/void.py:set_graveyard_cell", f"{V}/void.py:get_universe_complementary"])
p("the definition of a void box holds at the points of the box",
  "The expression of a void box (six signed plane numbers) holds at exactly the points of the box, whatever the orientation of the planes already registered.",
  "every box with volume, every registry, every point on none of the planes (real arithmetic)", "continuum of boxes and points", [f"{V}/void_box_class.py:VoidBox.get_bound_planes", f"{V}/void_box_class.py:VoidBox.get_void_complementary"])
p("solids and void cells fill the universe once",
  "After void generation every point of the universe box that is in no solid is in exactly one void cell, and points in a solid or outside the box are in none.",
  "every universe box, every list of solids, every splitting rule and setting, every point on no box plane", "unbounded histories of splits, continuum of points", [f"{V}/void.py:get_void_def", f"{V}/void_box_class.py:VoidBox.split", f"{V}/void_box_class.py:VoidBox.get_void_complementary"])
p("overlapping or doubly embedded enclosures are rejected",
  "Loading a model in which two enclosures at one level overlap, or one enclosure is declared below two parents, stops with an error instead of producing cells that cover a region twice.",
  "every list of enclosures, every declared nesting and every answer of the CAD intersection test", "unbounded lists and nesting", ["src/geouned/GEOUNED/loadfile/load_functions.py:check_enclosure", "src/geouned/GEOUNED/loadfile/load_functions.py:check_overlap"])
p("void comments name the labels of the enclosed solids",
  "The comment of every written void cell names, in order, the labels under which the solids of its box are written, with and without sorting by enclosure.",
  "every list of solids, enclosures and void cells, every startCell", "unbounded lists, numbering history", ["src/geouned/GEOUNED/core.py:update_comment", "src/geouned/GEOUNED/core.py:sort_enclosure", "src/geouned/GEOUNED/void/void_functions.py:update_void_list"])
p("the summary file lists cells under their labels",
  "Each solid cell in the summary file is listed under the label it has in the input files.",
  "every list of solids and void cells, every startCell, with and without sorting", "unbounded lists", ["src/geouned/GEOUNED/write/additional_files.py:summary_write"])
p("oblique cones keep one sheet",
  "A cone that is not along a coordinate axis is written as a two-sheet quadric; every written cell still holds at exactly the points where the definition with one-sheet cones holds, because the plane through the apex is added to each use of the cone, in solids and in void cells.",
  "every list of cells, every record of cones, every position of the surfaces, with and without forceNoOverlap", "unbounded expressions, histories of overlap removal and continuum of points", ["src/geouned/GEOUNED/core.py:process_cones", "src/geouned/GEOUNED/conversion/cell_definition.py:add_cone_plane"])
p("long surface cards are wrapped without loss",
  "A surface card written for MCNP or PHITS that is longer than the line length is cut into lines that fit, with the same words in the same order, and writing it terminates.",
  "every surface card whose words fit in a line, for every number format the user may choose",
  "unbounded texts and user-chosen number formats; the failure is a loop that never ends",
  ["src/geouned/GEOUNED/write/functions.py:trim", "src/geouned/GEOUNED/write/functions.py:cut_line"])
p("turning a surface after an insertion turns it everywhere",
  "After BoolSequence.insert_in_sequence added a surface to a definition, the writers' change_surf_sign applied to that definition exchanges the two sides of the surface at every place where it stands, so that the written cell holds at the same points after the card of the surface was written with the opposite orientation.",
  "every definition, every inserted surface and place, every sharing of sub-objects that the insertion creates, every position of the surfaces",
  "depends on aliasing of mutable objects in definitions of any size and depth",
  ["src/geouned/GEOUNED/utils/boolean_function.py:BoolSequence.insert_in_sequence", "src/geouned/GEOUNED/utils/boolean_function.py:BoolSequence.substitute", "src/geouned/GEOUNED/write/functions.py:change_surf_sign"])
p("A void box keeps the solids that reach into it",
  "When the void is cut into boxes, the list of solids of a box (and, of each solid, the pieces kept) describes the same region inside the box as the cells of the model: at every point of the box, a solid of the list holds iff the cell with the same number holds. Building the box raises no exception.",
  "all boxes, all lists of cells with any number of pieces, all points of the box, with and without forceNoOverlap",
  "The pieces are matched to the elements of the definition by position; this is right for the definitions delivered by cellDef and wrong after forceNoOverlap has removed a piece. A test sees one model and a few boxes.",
  ["src/geouned/GEOUNED/void/void_box_class.py: VoidBox.__init__, remove_extra_comp, copy_meta", "src/geouned/GEOUNED/utils/functions.py: GeounedSolid.update_solids", "src/geouned/GEOUNED/conversion/cell_definition.py: no_overlapping_cell"])
p("The definition of a cell says what the faces of its solids say",
  "For a solid decomposed into pieces, the cell definition holds at a point iff, for one of the pieces, every translated face agrees: the point is on the side of the surface that the face tells, within the limits of a torus face, and, for concave (reversed) faces, on the right side of one of the additional planes of that surface. Pieces without a translated face, and contradictory pieces, are dropped together with their CAD solid, so that definition and solids stay aligned.",
  "all lists of pieces, all lists of faces of each piece (any number, order and repetition), all points",
  "The definition goes through a text that is parsed again, with repeated faces merged, additional planes collected per surface and dropped pieces; a test covers a few solids.",
  ["src/geouned/GEOUNED/conversion/cell_definition.py: cellDef", "src/geouned/GEOUNED/utils/boolean_function.py: BoolSequence.set_def, append"])
p("Solids are considered in every enclosure they reach",
  "When enclosures are used, a solid that has points in the own region of an enclosure (inside it and outside the enclosures within it) is among the solids considered when the void of that enclosure is made, and a solid with points outside all enclosures is considered for the void of the universe; a solid is not considered in an enclosure it has no point in.",
  "all hierarchies of enclosures of any depth and width, all solids, all answers of the intersection check",
  "The search goes from the innermost level outwards and stops early; whether an enclosure is missed depends on the shape of the hierarchy and on how the solid crosses it. Tests use one or two enclosures.",
  ["src/geouned/GEOUNED/void/void_functions.py: assignEnclosure, select_solids", "src/geouned/GEOUNED/utils/functions.py: check_intersection"])
p("Void cells of enclosures are numbered in sequence and name their enclosure",
  "Void generation with enclosures delivers all void cells made, in order, numbered in sequence after the number given; each cell made for an enclosure carries the identifiers of that enclosure and of its parent, the cells of the universe and the graveyard carry 0 and -1. No cell is lost, repeated or given to another enclosure, whatever enclosures are envelopes.",
  "all hierarchies of enclosures, all lists of void cells (also empty ones), all sets of envelopes",
  "The lists are matched to the enclosures by a running index that must skip exactly the envelopes; a shift would only show in some hierarchies.",
  ["src/geouned/GEOUNED/void/void_functions.py: update_void_list", "src/geouned/GEOUNED/void/void.py: void_generation"])
p("With enclosures, void cells and solids share out the universe",
  "When every void made for an enclosure fills exactly the part of the enclosure free of the objects it was given, the whole list of void cells holds every point of the universe that is in no solid (and whose innermost enclosure is not an envelope) exactly once and every other point of the universe never.",
  "all hierarchies of enclosures of any depth, all lists of solids, all points",
  "A point lost or covered twice in a nested model is invisible to a test that does not sample it; it makes particles lost in transport.",
  ["src/geouned/GEOUNED/void/void.py: void_generation", "src/geouned/GEOUNED/void/void_functions.py: assignEnclosure, select_solids, update_void_list"])
p("Removing the complement operator keeps the region of a cell",
  "When a cell card of an MCNP input is processed, every `#(...)` and `#n` of its geometry is replaced by a text without `#`, and the new text describes the same set of points; `complementary` of a text without `#` describes exactly the points the text does not describe, and can stand as one factor.",
  "all decks, all cells, all well-formed geometries with `#` nested to any depth and mentioning any cells (without cycle), all points",
  "the deck, the depth of the nesting and the chain of mentioned cells are unbounded; a test compares few texts, not regions",
  ["src/geouned/GEOReverse/Modules/remh.py: cell_card_string, CellCardString, remove_hash, complementary",
   "src/geouned/GEOReverse/Modules/MCNPinput.py: GetCells"])
p("The filters choose the cells the user asked for",
  "After any sequence of calls of cell_filter and material_filter, reading a model gives exactly the cells that the last setting of each filter admits, in the order of the file; filled cells are admitted whatever their material.",
  "all sequences of filter calls (with lists), all lists of cells, both input formats",
  "The choice depends on the history of the settings and is coded in nine combinations, per reader; a test covers a few.",
  ["src/geouned/GEOReverse/core.py: set_filters, cell_filter, material_filter", "src/geouned/GEOReverse/Modules/MCNPinput.py: selectCells", "src/geouned/GEOReverse/Modules/XMLinput.py: selectCells"])
p("Levels and nested universes of a file are found",
  "For a file with a main universe and no universe left unused, the levels found are those of the nesting, whatever its depth; a file with an unused universe, or without a main one, is rejected. For a start universe and a depth, exactly the universes nested in the start up to that depth are taken.",
  "all files of any number of cells and any depth of nesting, all start universes, all depths",
  "Nesting is a graph of unbounded size, in which a universe can be used at several levels.",
  ["src/geouned/GEOReverse/Modules/MCNPinput.py: GetLevelStructure, GetFilteredCells, getSubUniverses", "src/geouned/GEOReverse/Modules/XMLinput.py: GetLevelStructure, GetFilteredCells, getSubUniverses"])
p("Solids of nested universes are in their places",
  "Building a universe down to a depth gives, for every cell nested in it, one solid: the region of the cell moved by all the transformations on the way to it and cut by the cells that contain it; none is lost (unless a failure is reported), repeated or left where it is not visible.",
  "all files, all depths of nesting, all transformations, all regions, all CAD kernels with exact operations, all points",
  "The solid depends on the whole path of containers; shapes are kept and used again, so that the order of the construction matters.",
  ["src/geouned/GEOReverse/Modules/buildCAD.py: BuildUniverseCells, interferencia", "src/geouned/GEOReverse/core.py: build_universe, build_container"])
p("Cells read from a file are what their cards say",
  "The cells read from an MCNP file, with LIKE n BUT, TRCL, FILL and #, are, universe by universe, the cells of the cards that the filters keep: same material, universe, filling and transformation of the filling, and the text given to the builder describes, with the numbered (and, for TRCL, moved) surfaces of the result, exactly the region that the card describes.",
  "all files, all chains of LIKE, all transformations, all names of surfaces, all points, all orders in which Python visits sets",
  "Texts are rewritten several times with shared numbers of surfaces; a collision of numbers changes a cell far away from the card that caused it.",
  ["src/geouned/GEOReverse/Modules/MCNPinput.py: setExplicitCellDefinition, processSurfaces, substituteLikeCell, GetFilteredCells, GetLevelStructure", "src/geouned/GEOReverse/Modules/remh.py: Cline.replace, Cline.get_surfaces_numbers"])
p("Universes can be built repeatedly",
  "After a file has been read, build_universe may be called any number of times, with the filters changed in between: every call gives the cells of the cards that the filters keep, as if it were the first.",
  "all files, all sequences of builds of any length, all filters and universes chosen in each, all points",
  "It concerns histories of calls; texts and cells are changed in place by every build.",
  ["src/geouned/GEOReverse/core.py: build_universe, build_container", "src/geouned/GEOReverse/Modules/MCNPinput.py: GetFilteredCells, selectCells, processSurfaces, substituteLikeCell"])
p("The container cell is what its card says",
  "For every cell of an MCNP file, the container cell read by build_container has the material, filling, transformation and region that its card describes.",
  "all files, all cells, all points",
  "It must hold for every card, with LIKE, TRCL and #; the general reading of cells is not used here.",
  ["src/geouned/GEOReverse/Modules/MCNPinput.py: GetCell", "src/geouned/GEOReverse/core.py: build_container"])
p("Surface cards are read on the right sides",
  "Every list of MCNP surface cards (planes, spheres, cylinders, cones, tori, point-defined surfaces, macrobodies) is read as one surface per card, kept under the card's name, and for every point off the surface the side that the reverse tool computes is the side that the MCNP manual gives.",
  "all lists of cards of any length and order, all entries allowed by the manual, all points",
  "The side depends on real entries and on a point of space; some cards use variables left over from earlier cards, so that the order of the file matters. Tests cover single cards.",
  ["src/geouned/GEOReverse/Modules/MCNPinput.py: Get_primitive_surfaces, points_to_coeffs, GetSurfaces", "src/geouned/GEOReverse/Modules/splitFunction.py: surface_side, btwPPlanes"])
p("Transformations move surfaces rigidly",
  "A surface card with a TR number is read as the surface of the card moved by the transformation card; the copy of a surface made for a cell with TRCL is the moved surface, and the original surface stays as it was.",
  "all files with any number of surface and TR cards, all rigid motions, all surfaces, all points",
  "It ranges over all motions of space and all points; aliasing of parameter lists between copies is visible only in later cells.",
  ["src/geouned/GEOReverse/Modules/Objects.py: Plane.transform, Cylinder.transform, Cone.transform, Sphere.transform, Torus.transform, EllipticCylinder.transform, Box.transform", "src/geouned/GEOReverse/Modules/MCNPinput.py: GetSurfaces, TransformationMatrix, substituteLikeCell"])
p("Transformation cards mean what the manual says",
  "Every TR or *TR card, and every transformation in parentheses after TRCL or FILL, is read as the map from the auxiliary to the main system that the manual defines, with 3, 9, 12 or 13 entries.",
  "all entries, cosines or angles, all points",
  "Real-valued entries and points; the forms with nine entries or with M = -1 need inputs that tests do not have.",
  ["src/geouned/GEOReverse/Modules/MCNPinput.py: getTransMatrix, __getTransList__, TransformationMatrix", "src/geouned/GEOReverse/Modules/remh.py: CellCardString.__get_data__"])
p("Cards GQ and SQ keep their sides",
  "A quadric card (GQ or SQ) whose equation has points with both signs is read as a surface for which every point with a positive value of the equation is on the positive side and every point with a negative value on the negative side.",
  "all coefficients, all positions and orientations of the quadric, all admissible results of the eigenvalue routine, all points",
  "Ten real coefficients, an eigenbasis that is not unique, and all points of space; a wrong tangent or a wrong sign in one family is invisible in tests of other families.",
  ["src/geouned/GEOReverse/Modules/MCNPinput.py: gq2params, sq2params, conicSurface, getGQAxis, get_cylinder_parameters, get_cone_parameters, get_hyperboloid_parameters, get_ellipsoid_parameters, get_parabola_parameters, Get_primitive_surfaces", "src/geouned/GEOReverse/Modules/splitFunction.py: surface_side"])
p("Surfaces of OpenMC files are read with their sides",
  "Every surface element of an OpenMC XML file is read, under its id and numbered by its place in the file, as a surface whose positive and negative half-spaces are those of the OpenMC manual.",
  "all files with any number of surface elements, all types and coefficients, all admissible results of the eigenvalue routine, all points",
  "Real coefficients, lists of any length, all points, and an eigenbasis that is not unique.",
  ["src/geouned/GEOReverse/Modules/XMLinput.py: GetSurfaces, Get_primitive_surfaces, gq2cyl", "src/geouned/GEOReverse/Modules/XMLParser.py: SurfCard", "src/geouned/GEOReverse/Modules/splitFunction.py: surface_side"])
p("Surfaces written and read back are the same surfaces",
  "If the surfaces of a model are written as MCNP surface cards (or as the surface elements of an OpenMC XML file) and the file is read by the reverse tool, then every surface comes back under its label, in the same order, and every point lies on the same side of it as of the original.",
  "Every list of planes, cylinders, cones, spheres and aligned tori in any position that the tolerances do not round, both ways of writing planes, every eigenbasis numpy may return, and every point.",
  "Real coefficients, lists of any length, all points, and the composition of two programs.",
  ["src/geouned/GEOUNED/write/functions.py: mcnp_surface, open_mc_surface", "src/geouned/GEOUNED/utils/q_form.py: q_form_cyl, q_form_cone", "src/geouned/GEOReverse/Modules/MCNPinput.py: Get_primitive_surfaces, gq2params", "src/geouned/GEOReverse/Modules/XMLinput.py: Get_primitive_surfaces, gq2cyl", "src/geouned/GEOReverse/Modules/splitFunction.py: surface_side"])
p("The solid of a cell is the region of its definition (GEOReverse)",
  "For every cell of the input file that GEOReverse builds, the solid it makes is the region the cell definition describes inside the external box: each point of the external box that lies on no surface of the definition is in the solid if and only if the signs of the surfaces at the point satisfy the definition; building the solid never raises an exception.",
  "all cell definitions (any nesting of intersections and unions of signed surfaces), all positions of surfaces and boxes, all CAD kernels that slice, fuse and bound correctly, all points",
  "The construction cuts a box surface by surface, remembers for each piece the side of the surfaces already used, joins pieces of a union and skips pieces by comparing boxes; whether that bookkeeping stays right depends on the nesting and on repeated surfaces, of which a test shows single cases.",
  ["src/geouned/GEOReverse/Modules/buildSolidCell.py: BuildDepth, BuildSolidParts, filterparts", "src/geouned/GEOReverse/Modules/splitFunction.py: joinBase, SplitSolid, space_decomposition", "src/geouned/GEOReverse/Modules/Objects.py: CadCell.getSubCell, build_BoundBox, makeBox, buildShape", "src/geouned/GEOReverse/Modules/Utils/booleanFunction.py: evaluate, group_single"])
p("The bounding box computed for a cell holds the cell",
  "When GEOReverse builds a cell whose definition is an intersection or a union of half-spaces bounded by planes, the oriented bounding box it computes (`get_boundBox` with the enlargement 0.2 or 10 that the program uses) says the truth: a `Forward` box holds every point of the cell in the external box (no box: the cell has no point there), a `Reversed` box holds every point of the external box that is not in the cell.",
  "all numbers and positions of planes, all orders of the surfaces, all external boxes, universes and tolerances",
  "The box decides which part of space is ever cut: what is outside is lost without a message. The result depends on all triple intersections of planes, on their order along each axis and on which of them are merged; tests try a few shapes.",
  ["src/geouned/GEOReverse/Modules/Utils/boundBox.py: solid_plane_box.isInside, get_boundBox, get_component_boundBox, get_box_orientation, plane_intersect, plane_boundary, line_boundary, sort_point, remove_close_points, remove_points"])
p("GEOReverse reads exactly the cards of an MCNP file",
  "For every MCNP input file that follows the rules of the manual (message block or not, title, three blocks separated by blank lines, comment lines, lines that continue a card, tabs, remarks after $), "
  "reading it yields the cell, surface and data cards of the file in their order, each with exactly the text of its lines; and no line of the file up to the end of the reading is lost or repeated in the list of cards.",
  "all decks (any numbers of cards, lines and characters), all ways to write them with tabs or blanks and with or without a final newline",
  "the space of files is infinite; a card that is cut or merged shifts the meaning of the geometry without any message; only a proof over the line automaton covers every order of comments, continuations and blank lines",
  ["src/geouned/GEOReverse/Modules/Parser/parser.py:get_cards, get_cards_from_input, is_commented, is_fc_card, is_blankline, replace_tab, Card.get_input",
   "src/geouned/GEOReverse/Modules/MCNPinput.py:MCNPinput.__init__"])
p("GEOReverse reads what a cell card says",
  "For every MCNP cell card that follows the rules of the manual (name, material, density, geometry over any number of lines, parameters in any order and spelling, or LIKE n BUT), "
  "reading its text gives the name, the material, the geometry text, the universe, the universe that fills it and the transformations (TRCL and that of FILL, starred or not) that the card states, and nothing else.",
  "all cards (any numbers, any number of surfaces, parameters and lines, any spelling in upper and lower case, any gaps), all functions for float and cosine",
  "the texts are unlimited and the reader is a set of regular expressions: each wrong match (a key inside another key, an exponent, a parenthesis of another parameter) silently changes the model; tests cover a handful of cards",
  ["src/geouned/GEOReverse/Modules/remh.py:CellCardString, Cline.remove_comments",
   "src/geouned/GEOReverse/Modules/Parser/parser.py:Card.get_values, _split_cell, _protect_nums",
   "src/geouned/GEOReverse/Modules/MCNPinput.py:MCNPinput.GetLevelStructure"])
p("GEOReverse reads what surface cards and TR cards say",
  "For every MCNP input file that follows the rules of the manual, the transformations read from it are exactly those of its TR and *TR cards (number, star, entries), the surfaces are exactly those of its surface cards "
  "(name, number of the transformation, mnemonic, entries) in their order, and no other data card prevents the reading or changes the result.",
  "all files (any numbers of cards, lines, entries; reflecting and periodic surfaces; any spelling; any other data cards), all functions for float",
  "the set of files is unlimited and the reader guesses the type of a data card from its first characters and replaces texts anywhere in the card; only a proof over all texts shows which files are read and which are not",
  ["src/geouned/GEOReverse/Modules/Parser/parser.py:_protect_nums, get_values, _split_surface, _split_data, _parse_tr, _get_int",
   "src/geouned/GEOReverse/Modules/MCNPinput.py:McnpInput.__init__, __getTransList__, GetSurfaces"])
p("A cut is tried at tolerances from the one given until the kernel succeeds",
  "Whatever splitTolerance the option accepts (0 or more) and whatever the CAD kernel does, cutting a solid by tools ends: the kernel is called at the given tolerance (0 standing for 1e-13), at tenths of it down to 1e-12, then - with scaleUp - at ten times, a hundred times, ... it until 0.1 or more; the first call that does not raise gives the result, and an exception comes out only if all of them raise.",
  "all values of splitTolerance and scaleUp, all behaviours of the kernel at every tolerance",
  "The option takes any real number and the kernel may fail at any subset of tolerances; a test fixes one tolerance and one behaviour.",
  ["src/geouned/GEOUNED/utils/functions.py: split_bop", "src/geouned/GEOUNED/utils/data_classes.py: Options.splitTolerance, Options.scaleUp"])
p("The pieces of a decomposed solid make up the solid",
  "If every cut made by the CAD kernel is a division of the solid cut (same points, same volume, no common points), then the decomposition of a list of solids without common points is a division of it: every point of the solids is in exactly one piece, no other point is in a piece, and the volumes add up.",
  "all CAD kernels, all extracted surfaces, all lists of solids, all options",
  "The number and order of the cuts depend on the faces the kernel reports for every intermediate piece; a test decomposes a few shapes.",
  ["src/geouned/GEOUNED/decompose/decom_one.py: SplitSolid, split_component, split_full_cylinder, cut_full_cylinder, split_planes, split_p_planes_new, split_2nd_order, split_2nd_order_planes, split_2nd_o_plane, remove_solids"])
p("A cell damaged by the decomposition is reported as suspicious",
  "After the decomposition of the cells, every cell that is not in the list of suspicious cells has the volume of its solids within 1 %; and a cell that has lost a piece is in the list. The cells keep their order; enclosures among the solid cells are left alone.",
  "all CAD kernels that conserve the volume, all lists of cells with any number of solids",
  "The error number passes through four stages and two loops that overwrite or add it; whether it is lost depends on the order of the solids and of the cuts.",
  ["src/geouned/GEOUNED/core.py: _decompose_solids", "src/geouned/GEOUNED/decompose/decom_one.py: SplitSolid, split_component, split_2nd_order_planes, split_2nd_o_plane, remove_solids"])
p("The decomposition ends",
  "With a CAD kernel whose cuts are divisions, every loop of the decomposition ends: the pieces of a proper cut are cut again only a bounded number of times.",
  "all CAD kernels, all lists of solids, all options; any number of rounds",
  "Non-termination cannot be observed by a test, and the loops cut the pieces of pieces without a bound.",
  ["src/geouned/GEOUNED/decompose/decom_one.py: split_full_cylinder, split_planes, split_2nd_order, split_2nd_order_planes"])
p("The faces connected to a face",
  "Asked for the faces of a solid that continue a given face (same surface, touching), the result is the set of the faces that a chain of touching faces links to it.",
  "every number of faces and every relation of touching",
  "the result depends on the order in which the faces of the solid are numbered; a test sees one numbering",
  ["src/geouned/GEOUNED/decompose/decom_one.py: same_faces, contiguous_face"])
p("Torus faces are grouped into connected surfaces",
  "The torus faces of a solid are divided into groups without losing or repeating one; two faces are in the same group exactly when a chain of touching faces of the same torus links them.",
  "every list of faces, every outcome of the tests of same torus and of touching",
  "the groups depend on the order of the faces and on the shape of the chains",
  ["src/geouned/GEOUNED/utils/geometry_gu.py: SolidGu.same_torus_surf, separate_surfaces"])
p("The range of a group of torus faces holds all of them",
  "For every group of torus faces, the range of the angle computed for the group exists, holds the range of each face (up to whole turns and the tolerance), and the group is said to go all around only if no angle is away from the faces.",
  "every list of ranges, every tolerance, the length of a turn being any number between 6 and 7",
  "ranges over all positions of the faces relative to the seam and to each other",
  ["src/geouned/GEOUNED/utils/geometry_gu.py: SolidGu.merge_periodic_uv"])
p("The ranges covered by the faces of a cylinder or cone are their connected sets",
  "Given the ranges of the angle of the faces on one cylinder or cone, the ranges computed are those of the sets of faces linked by ranges that overlap or are less than 1e-5 apart: every face is in one of them, each goes from the first start to the last end of its faces, has no hole, and begins after the end of the one before.",
  "every number of faces, every ranges, every order of the faces",
  "the search jumps over the sorted ends; which ends are adjacent depends on every range",
  ["src/geouned/GEOUNED/conversion/cell_definition.py: get_intervals"])
p("The additional plane of a cylinder or cone face is computed from the faces joined to it around the turn",
  "For a face of a cylinder or cone, the ends of the angle given hold the face and all the faces joined to it, across the seam too; no ends are given only when the faces go all around.",
  "every set of faces of a surface, every ranges, the length of a turn being any number between 6 and 7",
  "ranges over all positions of the faces relative to the seam",
  ["src/geouned/GEOUNED/conversion/cell_definition.py: get_u_value_boundary, get_closed_ranges"])
p("The planes that bound a torus face around the axis keep the face",
  "For a torus face that does not go all around the axis, the planes added to the cell keep every point of the face: all of it is on the side of the plane, or of one of the two planes joined by 'or'; for more than half a turn, the rest of the torus is on the side of none.",
  "every torus along a coordinate axis with minor radius below the major one, every position, every range of the angle",
  "ranges over all real positions and angles; the side is chosen from one point of the face",
  ["src/geouned/GEOUNED/conversion/cell_definition.py: gen_torus_annex_u_planes"])
p("The surface that bounds a torus face around its circle keeps the face",
  "For a torus face that does not go all around its circle, the plane, cylinder or cone added to the cell has the face on the side chosen and the rest of the torus on the other side.",
  "every torus along a coordinate axis with minor radius below the major one, every position, every range of the angle",
  "ranges over all real angles; the choice depends on comparisons of distances and heights of the two ends and the middle",
  ["src/geouned/GEOUNED/conversion/cell_definition.py: gen_torus_annex_v_surface"])
p("The additional plane of a concave cylinder or cone face separates the face from the rest of the surface",
  "When a plane is added for faces of a cylinder or cone that cover an angle of less than a turn, all the points of the faces are on the side chosen from their center of mass, and all the other points of the cylinder (of the sheet of the cone) are strictly on the other side.",
  "every cylinder and cone in any position, every range of the angle, every heights of the two ends, every distribution of the faces",
  "ranges over all real positions, angles and centers of mass",
  ["src/geouned/GEOUNED/conversion/cell_definition.py: gen_plane_cylinder, gen_plane_cone","src/geouned/GEOUNED/utils/basic_functions_part1.py: sign_plane"])
p("No solid of a STEP file is lost, duplicated or put into the cell of another element",
  "When a STEP file is loaded, the cells hold the solids of the file to be kept, each once and in order; an element marked as enclosure or envelope, or any element with compSolids, gives one cell with all its solids, any other gives one cell per solid; each cell has the path of its element as comment. No exception is raised.",
  "every tree of elements, every labels, every numbers of solids, every set of solids with splines",
  "cells are found by a running index into a list that shrinks when solids are fused; where it points depends on all elements before",
  ["src/geouned/GEOUNED/loadfile/load_step.py: load_cad","src/geouned/GEOUNED/loadfile/load_functions.py: fuse_meta_obj, joinEnvelopes, getCommentTree"])
p("The cells of a STEP file have different numbers",
  "After loading, no two cells have the same internal number.",
  "every tree of elements, every labels, every numbers of solids",
  "numbers are given before and after fusing; collisions depend on how many solids were fused before",
  ["src/geouned/GEOUNED/loadfile/load_step.py: load_cad","src/geouned/GEOUNED/loadfile/load_functions.py: fuse_meta_obj, joinEnvelopes"])
p("The labels of the CAD tree give each cell its material, dilution, universe, transformation and enclosure",
  "The material (with density from the material file), the dilution, the universe and the transformation of a cell are those of the nearest label in its branch that gives one; its enclosure number is that of the label above or its own; with delLastNumber the last word of each label is ignored if it is a number.",
  "every tree, every text of the labels, every material file",
  "ranges over all texts and all depths of the tree; the first match of a pattern in a label counts",
  ["src/geouned/GEOUNED/loadfile/load_step.py: load_cad","src/geouned/GEOUNED/loadfile/load_functions.py: get_label","src/geouned/GEOUNED/utils/functions.py: GeounedSolid.set_material, set_dilution"])
p("Several STEP files give the cells and enclosures of all of them, with different numbers",
  "When several STEP files are loaded, the model has the cells of all files one after the other and the enclosures of all files, and no two cells have the same number.",
  "every number of files, every numbers of cells and enclosures in each",
  "the same objects are renumbered in two lists; what happens depends on which files have enclosures",
  ["src/geouned/GEOUNED/core.py: CadToCsg.load_step_file, join_meta_lists"])
p("skip_solids removes the solids it names and no others",
  "load_step_file with skip_solids removes exactly the solids at the named places, negative places counted from the end, whatever their order; solids removed because of spline surfaces are left out too; a place that does not exist raises IndexError.",
  "every list of solids, every list of indices",
  "deletions shift the places of the others; ranges over all lists of indices",
  ["src/geouned/GEOUNED/core.py: CadToCsg.load_step_file"])
p("The material file is read as a table",
  "A material file of comments, records (label, density, name) and blank lines gives for each label the density with negative sign and the name of its last record.",
  "every file",
  "ranges over all sequences of lines",
  ["src/geouned/GEOUNED/loadfile/load_step.py: extract_materials"])
p("Conversions do not share their configuration",
  "Whatever is done to the options, tolerances, numeric format and settings of one CadToCsg instance (new objects given, attributes changed) leaves those of every other instance as they were, unless the user gave both the same object.",
  "every history of making instances, giving objects and changing attributes",
  "depends on which objects are shared, which is a matter of the whole history",
  ["src/geouned/GEOUNED/core.py: CadToCsg.__init__, setters"])
p("A configuration file runs the conversion it says",
  "from_json runs the conversion exactly for files whose keys are known, whose sections are accepted and which have load_step_file; otherwise it raises before any STEP file is read. The sections of the file are used, the others have their default contents; the arguments of load_step_file and export_csg are those of the file.",
  "every file, every order of its keys, every history before",
  "ranges over all files and all earlier uses of the classes in the same process",
  ["src/geouned/GEOUNED/core.py: CadToCsg.from_json"])
p("The MCNP file is a valid deck that says exactly the model",
  "The MCNP input file that is exported follows the rules of MCNP for input files (title, cell cards, blank line, surface cards, blank line, data cards; comment lines and continuation lines recognisable as such), and its cards say exactly the model: one card for each cell in order, with its number, material, density, region, volume, importances, universe and fill, one card for each surface with its number, name and numbers, one card for each material that occurs, and the chosen source and tallies; no comment, title or file name can become a card.",
  "all models (cells, comments, surfaces, titles, settings) and all texts of formatted numbers",
  "the file is a concatenation of texts of unbounded length, wrapped and indented; whether some comment, long definition or number makes a line be read as another card is a question about all of them",
  ["src/geouned/GEOUNED/write/mcnp_format.py: McnpInput.write_input, write_header, write_cells, write_surfaces, write_mat_block, write_source_block, option_format, comment_format, comment_line", "src/geouned/GEOUNED/write/functions.py: CardLine, mcnp_surface"])
p("The cells of a written MCNP file are read back by GEOReverse","Write a model in MCNP format and hand the file to GEOReverse: it finds one cell card for each cell of the model, in order, and reads from each of them the cell's number, material, region, universe, filling universe and its transformation. (The file must end with a newline: with both a source sphere and volSDEF but not volCARD it does not, see C102.)","every model that can be written (title of one line, densities given), every formatting of numbers, every record of cells, comments, fills, void cells, and options","the text of a card depends on wrapping at 80 columns, on comments and on options; only finitely many files can be tried",["src/geouned/GEOUNED/write/mcnp_format.py: McnpInput.write_input","src/geouned/GEOReverse/Modules/Parser/parser.py: get_cards, Card","src/geouned/GEOReverse/Modules/MCNPinput.py: McnpInput.GetCells"])
p("The surfaces of a written MCNP file are read back by GEOReverse","Write a model in MCNP format and hand the file to GEOReverse: the surfaces that it finds are those of the model that have a card, in order, each with its number, its name and its numbers and without a transformation; it finds no TR card, and none of the other data cards that were written stops it. (The file must end with a newline, see C102.)","every model that can be written, every surface card, every set of data cards written by the options","wrapping and number formatting vary with the values; only finitely many files can be tried",["src/geouned/GEOUNED/write/mcnp_format.py: McnpInput.write_input","src/geouned/GEOReverse/Modules/Parser/parser.py: get_cards, Card","src/geouned/GEOReverse/Modules/MCNPinput.py: McnpInput.GetSurfaces, __getTransList__"])
p("The OpenMC XML file is well-formed and says exactly the model",
  "The XML file exported for OpenMC is well-formed XML with one element `geometry`; in it stand one `cell` element for each cell to be written, in order, with its number, material, name, universe and a region of the same meaning as the cell's definition, then one `surface` element for each surface with its number, kind and coefficients, the last one with a vacuum boundary.",
  "all models: cells, comments, definitions of any size and surfaces",
  "whether the characters of some comment or long region end an attribute early is a question about all texts",
  ["src/geouned/GEOUNED/write/openmc_format.py: OpenmcInput.write_xml, write_xml_cells, write_xml_surfaces","src/geouned/GEOUNED/write/functions.py: open_mc_surface, write_openmc_region"])
p("The OpenMC XML file is read back by GEOReverse",
  "Write a model in OpenMC XML format and hand the file to GEOReverse: it finds the cells and surfaces of the model, in order, each cell with its number, material and region, each surface with its number, kind and numbers. Elements of two different universes of any XML file stay in two universes; a cell without region is all of space.",
  "every model that can be written, every XML element",
  "ranges over all files",
  ["src/geouned/GEOUNED/write/openmc_format.py: OpenmcInput.write_xml","src/geouned/GEOReverse/Modules/Parser/XMLParser.py: get_cards, CellCard, SurfCard, process_card","src/geouned/GEOReverse/Modules/XMLinput.py: XmlInput"])
p("The OpenMC Python script is valid and says exactly the model",
  "The Python script exported for OpenMC consists of valid statements: one for each material in use, the collection and export of the materials, one for each surface with its kind and arguments (vacuum boundary on the last), one for each cell with its name, material and a region of the same meaning as the cell's definition, the geometry of exactly these cells and its export. Every name is assigned before it is used.",
  "all models: cells, comments, definitions of any size and surfaces",
  "whether the characters of some comment end a string early, or some order of cells uses a name too soon, is a question about all models",
  ["src/geouned/GEOUNED/write/openmc_format.py: OpenmcInput.write_py, write_py_cells, write_py_surfaces, write_py_materials","src/geouned/GEOUNED/write/functions.py: open_mc_surface, write_openmc_region"])
p("The Serpent file is valid and says exactly the model",
  "The Serpent input file that is exported follows the rules of Serpent (after removing comments, a sequence of cards each beginning with the name of a card), and its cards say exactly the model: one `cell` card for each cell in order, with its number, universe, material (`void`, `outside` for the graveyard) and a region of the same meaning, one `surf` card for each surface with its number, kind and numbers, and the two `set` cards; no title, comment or file name can become a card.",
  "all models (cells, comments, surfaces, titles, universes)",
  "the file is a concatenation of texts of unbounded length; whether some title, comment or definition runs into the next card is a question about all of them",
  ["src/geouned/GEOUNED/write/serpent_format.py: SerpentInput.write_input, write_header, write_cells, write_surfaces, comment_format, comment_line","src/geouned/GEOUNED/write/functions.py: serpent_surface, write_serpent_cell_def"])
p("The PHITS file says exactly the model",
  "The PHITS input file that is exported has the sections [CELL], [SURFACE], with `dummyMat` [MATERIAL] and with `volCARD` [VOLUME]; everything before is a comment. There is one cell card for each cell in order with number, material, density, region of the same meaning and universe (if the STEP file has no labels of enclosures or envelopes: only for solids, inner and outer void), one card for each surface, one material card for each material in use and none twice, one volume line for each cell card with the volume in cm3. The writer ends.",
  "all models (cells, comments, surfaces, titles, universes, void materials) and all texts of the STEP file",
  "the file is a concatenation of texts of unbounded length, and which cells are written depends on a search in the whole STEP file",
  ["src/geouned/GEOUNED/write/phits_format.py: PhitsInput.write_phits, write_phits_header, step_filename_label_chk, write_phits_cells, write_phits_cells_uni_void_def, write_phits_source_block, write_phits_volume_block, comment_format, comment_line, option_format"])
p("The unified void of a PHITS file is what the solids leave",
  "If void cells are unified (no enclosures), then in the exported PHITS file the cell of the inner void contains exactly the points inside the bounding sphere that are in no solid, where `#n` means the complement of the cell with number n in the file; each other cell contains the points of its definition. Together with the outer void the cells of the file cover all of space, and the inner void meets no solid and not the outer void.",
  "all models without enclosures, all points, all first cell numbers",
  "whether a list of #n over a computed range of numbers names all solids and nothing else must hold for every number of cells",
  ["src/geouned/GEOUNED/write/phits_format.py: PhitsInput.write_phits_cells_uni_void_def, inner_void_def","src/geouned/GEOUNED/core.py: CadToCsg.start"])
p("Exports do not change what later exports write",
  "Whatever sequence of exports (any formats, any arguments) has been made from a project, a further export writes the same files as it would have written at the beginning: exporting twice gives the same files, and exporting one format does not disturb another.",
  "all projects and all finite histories of export_csg calls",
  "the number and order of exports is unbounded; the writers share mutable cells",
  ["src/geouned/GEOUNED/core.py: CadToCsg.export_csg","src/geouned/GEOUNED/write/write_files.py: write_geometry","src/geouned/GEOUNED/write/phits_format.py: PhitsInput.write_phits_cells, write_phits_cells_uni_void_def"])
p("An export writes exactly the files that are asked for",
  "export_csg with arguments that are not as documented (wrong types, negative UCARD, an unknown format, a plain string as outFormat) raises TypeError or ValueError before any file is touched. Otherwise it writes exactly the files of the requested formats (and comment and summary file if requested) under geometryName; each file is the same whichever other formats are requested, in whatever order or repetition. If a writer fails, the files before it are complete and the files after it and all others are untouched. UCARD=0 means that no universe is written.",
  "all argument values, all sets and orders of formats, all contents of the output directory, every failure point",
  "ranges over all argument combinations and over every point at which a writer can fail",
  ["src/geouned/GEOUNED/core.py: CadToCsg.export_csg","src/geouned/GEOUNED/write/write_files.py: write_geometry","src/geouned/GEOUNED/write/additional_files.py: comments_write, summary_write"])
p("GEOReverse: the definition built from the text of a cell has the meaning of the text",
  "`BoolSequence(text)` of GEOReverse, for every well-formed cell text (signed numbers, blanks as intersections, `:` as unions, parentheses in any nesting), raises no exception and builds an expression that holds at a point exactly when the text does by the syntax rules (intersection binds tighter than union). `evaluate` may be called any number of times with any dictionaries of known sides of surfaces: it never raises, an answer True or False is the value of the text at every point that agrees with the dictionary, and it answers None only if some surface of the text is unknown. `get_complementary` gives the opposite at every point and leaves the meaning of the definition as it was.",
  "every well-formed text of any length and nesting, every point, every sequence of calls of evaluate with every partial dictionary",
  "The texts and histories of calls are unbounded; the parser works by nested string replacement and evaluate regroups the definition in place, so that errors depend on the nesting and on the history.",
  ["src/geouned/GEOReverse/Modules/Utils/booleanFunction.py: BoolSequence.set_def, outer_terms, redundant, is_integer, group_single, evaluate, get_complementary", "src/geouned/GEOReverse/Modules/buildCAD.py", "src/geouned/GEOReverse/core.py"])
p("A cell described by planes encloses the cell",
  "To find the extent of a cell, the reverse converter replaces every curved surface by planes. For every cell definition, orientation and set order this is done without exception and, if every curved surface has planes, every number of the new definition is that of a plane. In orientation Forward every point of the cell lies in the definition of planes, in orientation Reversed every point of the definition of planes lies in the cell, and where planes and surfaces agree the two definitions agree.",
  "every cell definition (any nesting), every set of surfaces with the planes standing for them, every iteration order of sets, all three orientations, every point",
  "Definitions have unbounded nesting and any number of surfaces; the result depends on the order in which sets are iterated.",
  ["src/geouned/GEOReverse/Modules/Utils/boundBox.py:quadric_to_plane","src/geouned/GEOReverse/Modules/Utils/boundBox.py:plane_definition","src/geouned/GEOReverse/Modules/Utils/boundBox.py:change_surf","src/geouned/GEOReverse/Modules/Utils/booleanFunction.py:BoolSequence"])
p("The planes that stand for a curved surface enclose it",
  "For every sphere, cylinder, cone, torus, paraboloid and box the reverse converter makes planes without exception; every point inside the surface is inside the planes made around it, and no point outside of a cone is inside the planes made within it; a plane keeps its two sides. Hence, for every cell of such surfaces, each point of the cell lies in the region of the definition of planes (orientation Forward), and conversely (Reversed).",
  "all parameters of the surfaces (positive radii, any position and direction), every point of space, every cell definition of any nesting",
  "Real-valued parameters and points; a sample of surfaces and points says nothing about the others.",
  ["src/geouned/GEOReverse/Modules/Utils/boundBox.py:convert_to_planes","src/geouned/GEOReverse/Modules/Utils/boundBox.py:get_orto_axis","src/geouned/GEOReverse/Modules/Utils/boundBox.py:cylinder_to_planes","src/geouned/GEOReverse/Modules/Utils/boundBox.py:cone_to_planes","src/geouned/GEOReverse/Modules/Utils/boundBox.py:sphere_to_planes","src/geouned/GEOReverse/Modules/Utils/boundBox.py:torus_to_planes","src/geouned/GEOReverse/Modules/Utils/boundBox.py:box_to_planes","src/geouned/GEOReverse/Modules/Utils/boundBox.py:parabola_to_planes"])
p("Faceted solids keep their material (option Facets)",
  "With the option Facets a cell is defined from the plane faces of its solids. For every cell whose solids are described by their faces (the material being the points on the inner side of some face of every set of faces connected by edges that are not convex), with the planes of the faces known to the surface registry, a definition is made without exception, and a point on no plane satisfies it exactly when it is in one of the solids; neither the order of the faces, nor faces in a common plane, nor a solid that is inside out change this.",
  "any number of solids, any number, order and grouping of faces, every registry and every direction of its planes, every point",
  "The set of polyhedra, of face orders chosen by the CAD program and of points is unbounded; tests use a few convex solids.",
  ["src/geouned/GEOUNED/cuboid/translate.py:set_definition","src/geouned/GEOUNED/cuboid/translate.py:isConvex","src/geouned/GEOUNED/cuboid/translate.py:commonEdge","src/geouned/GEOUNED/cuboid/translate.py:removeElement"])
p("Cells excluded from void generation","In every conversion the void generation gets exactly the cells that are no enclosures and whose comments contain none of the words of voidExclude, in the order of the model (all cells if voidExclude is empty), with comments and solids as loaded.","every model, every set of options, every list of words, whatever the parts of the program called in between compute","The list is formed after decomposition, building and overlap treatment of any number of cells, which work on the same objects; a test sees one model and one setting.",["src/geouned/GEOUNED/core.py:exclude_cells","src/geouned/GEOUNED/core.py:CadToCsg.start"])
p("Bounding box of the geometry","The bounding box of the geometry holds the solids of every cell of the model, enclosures included, with a margin of exactly 10 mm on each side beyond the outermost solid, and is what every conversion that ends leaves in the object.","every non-empty list of cells with any solids, any margin, every conversion","Any number of real boxes in any arrangement; the first one is treated specially, and a test can only try some.",["src/geouned/GEOUNED/core.py:CadToCsg._get_geometry_bounding_box"])
p("A conversion runs to its end","If none of the parts called (decomposition, definition of cells, void generation, simplification …) raises an exception, start() converts every loaded model with every choice of settings and options.","every model, every combination of options, every behaviour of the parts called","The options interact: whether an enclosure has a definition when it is needed depends on voidGen, forceNoOverlap, simplify and sort_enclosure together with the content of the model.",["src/geouned/GEOUNED/core.py:CadToCsg.start","src/geouned/GEOUNED/core.py:sort_enclosure","src/geouned/GEOUNED/conversion/cell_definition.py:no_overlapping_cell"])
p("A second conversion with the same object","After start() has ended, start() can be called again, for example with other options, and converts the model again.","every model, every pair of option sets, every behaviour of the parts called","Concerns the state left behind by any conversion, not one call.",["src/geouned/GEOUNED/core.py:CadToCsg.start"])

p("GEOReverse: the bounding box of a nested cell holds the cell",
  "For every cell definition, of any nesting of intersections and unions of surfaces, the bounding box that GEOReverse computes before it builds the cell contains the cell (the part of it that is in the external box); if the box is marked as reversed, it contains the complement of the cell. The computation ends without exception.",
  "every nested definition over planes, and every cell of planes and curved surfaces, over any ordered field",
  "ranges over unbounded nesting depth and arbitrary positions of planes; a wrong box silently removes part of a cell",
  ["src/geouned/GEOReverse/Modules/Utils/boundBox.py: solid_plane_box.get_boundBox, build_box_depth, myBox.add, myBox.mult"])
p("The cells of a converted model divide space, also after the file has been written and read",
 "In a model made from CAD solids that do not overlap, with void generation and the graveyard, every point of space (off the surfaces) is in exactly one cell: one solid, one void cell, the region between the universe box and the sphere, or the outside of the sphere. The same holds for the cells that are read from the MCNP file (by GEOReverse), for the OpenMC XML file inside of the sphere (outside there is no cell), and for the PHITS file with unified void.",
 "all lists of solids with definitions that describe them, all void box sizes and settings, all points off the surfaces, all exported files",
 "a test samples points or models; a transport run loses particles at any point that is in no cell or in two",
 ["src/geouned/GEOUNED/void/void.py:void_generation, get_void_def, set_graveyard_cell","src/geouned/GEOUNED/void/void_box_class.py:VoidBox","src/geouned/GEOUNED/write/mcnp_format.py:McnpInput","src/geouned/GEOUNED/write/openmc_format.py:OpenmcInput","src/geouned/GEOUNED/write/phits_format.py:PhitsInput","src/geouned/GEOReverse/Modules/MCNPinput.py:MCNPinput","src/geouned/GEOReverse/Modules/XMLinput.py:XmlInput"])
p("Values of options, tolerances, formats and settings are checked when they are given",
 "Assigning a documented parameter of Options, Tolerances, NumericFormat or Settings, or giving it to the constructor, stores the value if it has the documented type and changes nothing else; any other value raises an exception and leaves everything as it was. So after any history of constructions and assignments, failed ones included, every parameter of every object has a value of its documented type, and an object made without arguments has the documented default values. Names that are no parameters are rejected.",
 "all histories of constructions, assignments (accepted and rejected) and list operations, all values, all 55 parameters",
 "a conversion runs for hours before a wrong value is used; tests assign a few wrong values to fresh objects",
 ["src/geouned/GEOUNED/utils/data_classes.py:Options, Tolerances, NumericFormat, Settings"])
p("The void of an enclosure fills the enclosure",
  "For an enclosure of any shape, however its void is subdivided, the void cells made for it hold every point of the enclosure that is in no solid and no inner enclosure exactly once, and no other point.",
  "all enclosures and solids in them, all settings of the subdivision, all points off the surfaces",
  "The subdivision depends on the shape of the enclosure and on the numbers of surfaces of every intermediate box; a lost piece shows only at particular points of particular shapes.",
  ["src/geouned/GEOUNED/void/void_box_class.py: VoidBox.__init__, split, piece_enclosure_split, get_void_complementary", "src/geouned/GEOUNED/void/void.py: get_void_def"])
p("The files of a CAD export have the name that was asked for","export_cad(name) of a reverse conversion writes the STEP file and the FreeCAD file under the stem given: only the suffixes .stp and .step are removed from the name. Exports under different stems never write the same file; without a name the name of the input file is used.","every name (directory, file name with any number of dots), every name of an input file","names are arbitrary strings",["src/geouned/GEOReverse/core.py: CsgToCad.export_cad"])
p("GEOReverse builds in the box of its settings","In every session, a converter builds its cells in the box that the current values of its settings ask for: the dimensions, or the cube of the radius; nothing farther than the radius is represented; a statement about the settings of one converter has no effect on another; values that are not as documented are refused with a TypeError and change nothing.","every sequence of statements that make and change settings and converters, with any values","sessions of any length, any values",["src/geouned/GEOReverse/Modules/Utils/boundBox.py: BoxSettings","src/geouned/GEOReverse/core.py: CsgToCad.__init__"])
p("Reverse conversion: a cell card becomes a solid with the region written on it",
"GEOReverse accepts every well-formed geometry of an MCNP cell card (with or without '#', with redundant parentheses), and the solid it builds with the surfaces of the card contains exactly the points of the external box that the geometry describes, apart from points on a surface and solids thrown away as too small. In particular a cell that GEOUNED has written to an MCNP file comes back as a solid with the region of the cell's definition.",
"every well-formed geometry text, every deck of cells referring to each other with '#', every exact CAD kernel, every external box; for the round trip every model GEOUNED can write",
"Tests build a few cells and look at volumes; they cannot cover all texts, all orders of surfaces, or all points.",
["src/geouned/GEOReverse/Modules/remh.py:Cline.remove_redundant","src/geouned/GEOReverse/Modules/remh.py:remove_hash","src/geouned/GEOReverse/Modules/Objects.py:CadCell.__setDefinition__","src/geouned/GEOReverse/Modules/Objects.py:CadCell.buildShape","src/geouned/GEOReverse/Modules/buildCAD.py:BuildUniverseCells","src/geouned/GEOReverse/Modules/buildSolidCell.py:BuildSolid"])
p("The exported CAD document shows every built cell once, under its universe and its material","The document made by export_cad is a tree: its first object (the only one exported to STEP) is a part with the file's name; under it, in order, one part per universe built, labelled with the universe and the cell it fills; in a universe's part come the parts of the universes nested in it and then one part per material of its cells holding the solids of exactly those cells, in order. Every built cell gives exactly one solid with its name, material and shape; every object is in exactly one part and reachable from the first object, so nothing is missing in the STEP file. The labels tell cells, universes and materials apart.","all nestings of universes, all cells, names, materials and numbers of universes built","The document depends on the nesting and on how cells of different materials alternate; references to objects are made while the list grows, so a lost or doubled solid shows only for some nestings, and label clashes only for some numbers.",["src/geouned/GEOReverse/Modules/buildCAD.py:makeTree","src/geouned/GEOReverse/core.py:CsgToCad.export_cad"])
p("A constraint table made from the solids describes the box","build_c_table_from_solids returns a table of the given surfaces that excludes no combination of sides (this surface positive, that one negative) occurring at some point of the box; when the pieces of a cut lie on both sides and the distance test is exact it allows exactly the combinations that occur; every pair of surfaces has an entry from which the constraint sets can be read; so a definition simplified with the table keeps its region everywhere in the box unless two surfaces crossing the box are on equal, or opposite, sides all over it.","every list of distinct surfaces, every box, both modes (diagonal or full), every CAD kernel that cuts and measures honestly, whatever values the loop variables were left with","The table is made by cutting the box by each surface and looking at each piece against each other surface; no test compares it with the points of the box, and the result is used for every cell.",["src/geouned/GEOUNED/utils/boolean_solids.py:build_c_table_from_solids","src/geouned/GEOUNED/utils/boolean_solids.py:split_solid_fast","src/geouned/GEOUNED/utils/boolean_solids.py:check_sign"])
p("The side of a surface used for constraint tables is the side in the output","check_sign, which decides on which side of a surface a piece of the box lies, answers +1 (-1) for a point that the written surface card, read by the manual of the code, has on its positive (negative) side.","every plane, cylinder, cone, sphere and torus with the sizes a CAD kernel gives, every point off the surface","The constraint tables reason about surfaces as check_sign sees them while the transport code evaluates the cards; a test samples a few points, and the two readings differ only in regions (the other sheet of a cone, between the parts of a torus) no test visits.",["src/geouned/GEOUNED/utils/boolean_solids.py:check_sign","src/geouned/GEOUNED/write/functions.py:mcnp_surface"])
p("A configuration file of geouned_csgtocad runs the conversion it says",
  "When the sections of the configuration file are as documented and no method raises, the tool reads the file named with the format named, sets the filters of the sections cell_filter and mat_filter (with type and list as given), builds, and writes the CAD files under the name of export_cad (or the default); the cells built are exactly those the two filters admit. Nothing is written when anything before fails; the order of the sections does not matter; without read_csg nothing is done. A section with any other name should be refused.",
  "all configuration files (sections and keys), all models, all points of failure of the methods called",
  "an example file exercises one combination of sections, one order and no failure; a misnamed section has to be seen as having no effect",
  ["src/geouned/GEOReverse/scripts/geouned_csgtocad.py:main", "src/geouned/GEOReverse/core.py:CsgToCad.read_csg_file,cell_filter,material_filter,export_cad"])
p("Renumbering changes the numbers of surfaces in a card and nothing else",
  "When GEOReverse renames the surfaces in the text of a cell (on reading, and for cells moved with TRCL), every number of a surface is replaced by its new number, all at once whatever the table (a new number is never replaced again), numbers of cells after # and every other character stay, a surface that is not known is an error, and the loop ends.",
  "all texts, all tables of new numbers (also permutations and numbers of other lengths), all numbers of rounds",
  "a test exercises one text with one table; that positions stay right when numbers get longer or shorter, that no number is replaced twice, and that the loop ends has to hold for all texts",
  ["src/geouned/GEOReverse/Modules/remh.py:Cline.replace", "src/geouned/GEOReverse/Modules/MCNPinput.py:processSurfaces,substituteLikeCell", "src/geouned/GEOReverse/Modules/XMLinput.py:processSurfaces"])
with open("/verif/properties.jsonl","w") as f:
    for q in P: f.write(json.dumps(q)+"\n")
print(len(P))
