## Which code is modelled

| file | modelled | not modelled |
|--|--|--|
| `GEOUNED/utils/boolean_function.py` | all of `BoolSequence` (`Bool/`), parsing (`Text/`), in-place versions (`Alias/`) | `__str__` |
| `GEOUNED/utils/boolean_solids.py` | constraint tables, `solid_in_box`, `remove_extra_surfaces`, entries from sampled positions, the making of the table from the solids, `split_solid_fast`, `check_sign` (also over the reals, `Geom/Sign.lean`), `divide_box` (`CTable/`, `Box/`) | `point_inside`, cuts and distances (CAD kernel: parameters) |
| `GEOUNED/utils/functions.py` | `SurfacesDict`, `GeounedSolid` (material, boxes) | building of CAD faces, `check_intersection` (CAD kernel; its answers are inputs) |
| `GEOUNED/utils/basic_functions_part1.py`, `part2.py`, `q_form.py` | parameters, same-surface tests, quadrics, planes through points | |
| `GEOUNED/conversion/cell_definition.py` | `cellDef`, `no_overlapping_cell`, `add_cone_plane`; ranges of faces, additional planes of cylinder and cone faces, additional surfaces of torus faces (`Face/`) | `gen_plane_sphere`, angle between faces (CAD kernel) |
| `GEOUNED/utils/geometry_gu.py` | grouping of torus faces and their ranges (`Face/`) | wrappers of the CAD kernel |
| `GEOUNED/void/*.py` | void boxes, with and without a piece of an enclosure, complementary, loop, box definition, graveyard, enclosures | distance, volume and common part of solids (CAD kernel: parameters of C124); `refine`, which is not called |
| `GEOUNED/loadfile/load_functions.py` | enclosure checks and levels, labels, fusing of cells, envelopes | options of the CAD program, unused index functions |
| `GEOUNED/loadfile/load_step.py` | all, from the elements of the document on | reading of the file by the CAD kernel, messages, exit for splines |
| `GEOUNED/core.py` | numbering and sorting of cells, cones, joining of files, skipped solids, configuration (`Conf/`), `export_csg` (`Session/`), the run of `start` as a whole with the parts called as parameters (`Driver/`) | logging, time stamps, debug files; what a step that fails leaves half done |
| `GEOUNED/utils/data_classes.py` | all parameters, setters and constructors (`Setup/`) | numbers as Python values of floats beyond finite, infinite, NaN |
| `GEOUNED/cuboid/translate.py` | `set_definition` and what it calls (`Facet/`) | `is_inverted` (CAD kernel), extraction of the planes |
| `GEOUNED/write/*.py` | all surface writers, all cell-definition writers, line wrapping, orientation of planes, labels and comments, export selection; of `mcnp_format.py`, `openmc_format.py`, `serpent_format.py` and `phits_format.py` the whole files, character by character (`McnpFile/`, `OmcFile/`, `SerpFile/`, `PhitsFile/`) | formatting of floats |
| `GEOUNED/decompose/decom_one.py` | grouping of parallel planes, the loops of the decomposition and their error numbers | the cuts themselves and the extraction of surfaces (CAD kernel): parameters of the model |
| `GEOReverse` | oriented boxes, cell ranges, removal of `#`, `LIKE`/`TRCL` cards and numbering of surfaces, repeated builds, container cell, filters, the configuration file of the tool (`RCore/Cli*`), levels, construction of nested universes and of solids (`Rev/`), boxes of nested definitions (`Nest/`), bounding boxes of level-0 definitions (`BB/`), surface and transformation cards (`RSurf/`), cards of a file from its lines (`Card/`), text of cell cards (`CellText/`), text of surface and TR cards (`SurfText/`), elements of OpenMC XML files (`OmcFile/Read.lean`), its own boolean class from the text (`RBool/`), definitions of planes (`Poly/`) and the planes of every kind of surface (`Shape/`), names of exports and box settings (`RCore/`), from the text of a cell card to its solid (`Whole/Back*.lean`), the tree of the exported document (`RCore/Tree*.lean`), renaming of surfaces on characters (`Rev/Renum*.lean`) | CAD kernel (a parameter of C67) |

## Defects found in the code

Each is proved in the model (`..._violated` or the named theorem):

* `simplify` may turn an expression into `True`/`False` wrongly: `update` puts a bare boolean in place of the whole parent (C11, C12, C13); raises on mixed
  levels (C12).
* `append` on a boolean object and `get_complementary` of a boolean crash (C01, C09).
* `get_dependence` is wrong for entries (0,1,0,1) and (1,0,1,0) (C20, C22).
* `remove_extra_surfaces` negates a sub-cell that `check` finds constant (C23).
* pair entries use a stale variable when one side has no piece (C45); transposing a diagonal entry gives a bare integer (C19).
* a void cell can lose a region or be lost: AND of one solid treated as a union, AttributeError, cell dropped when decided, enclosure cell reaching outside (C26);
  the loop over boxes stops after 50 rounds and drops what is left (C27).
* `no_overlapping_cell` raises TypeError on identical half-spaces (C28); after it, `remove_extra_comp` takes the wrong element of a definition (C59); cones
  brought by complements are not recorded (C56).
* `get_surface` raises IndexError after deletion of the last entry (C30).
* `sort_enclosure`: envelope → KeyError, two enclosures with equal number → cells written twice; a comment naming a null solid → KeyError (C32); ids of
  void cells repeat those of solids in sorted mode (C54); the summary prints the internal id (C55).
* three-point planes are turned again by each writer; those along an axis below the origin are wrong at once (C33); shared sub-objects are turned once per place (C58).
* `wrap_line` and `cut_line` never end for some texts (C34, C57); writers raise TypeError for boolean constants (C17).
* `is_same_plane` with relative tolerance and `is_same_cylinder` are not symmetric (C39); `is_same_cone` identifies opposite axes (C46).
* oblique tori: empty MCNP/PHITS card, type `None` in OpenMC XML; OpenMC Python tori have keywords that do not exist (C47, C48); Serpent cones,
  cylinders along Z and oblique cylinders are unreadable (C49).
* the checks for overlapping and doubly embedded enclosures are dead code (C53); an enclosure inside a solid is ignored (C61, C63).
* `Density` is stale when the dilution is set later (C40); `²` passes `isnumeric` and raises in `int` (C44).
* GEOReverse: `#n` of a cell with `TRCL` uses the untransformed geometry; a cell with `TRCL`/`LIKE` keeps its `#`, which the parser then
  ignores; a cell that mentions itself ends in RecursionError (C64).
* GEOReverse, filters: for OpenMC files including materials while excluding cells always raises AttributeError; `include` without a list uses the list of an
  earlier call or raises TypeError (C65).
* GEOReverse, universes: a universe used at several levels is counted at the first only, so that what is nested in it may be left out; the OpenMC reader removes
  keys from the list it iterates over and keeps universes that are not wanted (C66).
* GEOReverse, construction: a universe that fills two cells is made in the box of the first one, and the cut shape is kept, so that the second one gets a wrong solid;
  a filling without transformation inside a moved universe raises TypeError; `build_container` goes one level too deep and raises KeyError (C67).
* GEOReverse, cards: if a surface card is not supported, the surfaces moved by `TRCL` overwrite others; `LIKE n BUT` with `n` in another universe or filtered out
  raises KeyError, entries 0 are ignored, and chains written backwards lose entries; a transformation given with `FILL` is lost beside `TRCL` (C68).
* GEOReverse, repeated builds: without filters a second build raises AttributeError; with filters the names of surfaces are replaced a second time (wrong surface or
  KeyError), and cells with `TRCL` raise KeyError (C69). `build_container`: `#` stays in the text, `TRCL` is ignored, a `LIKE` card raises KeyError (C70).
* GEOReverse, surfaces: a cylinder given by two points (cards X, Y, Z) raises UnboundLocalError or moves the cylinder read before it and gets a radius ten times
  too small; two points at one height raise ZeroDivisionError, a point on the axis gives a surface without parameters; the side of a TRC raises at the apex (C71).
* GEOReverse, transformations: planes `P` with a normal that is no unit vector and boxes with a displacement are moved wrongly; moving a copy of a REC changes the
  original (C72); nine cosines raise TypeError and `M = -1` is ignored (C73).
* GEOReverse, quadrics: circular cones given as GQ get the inverse of their tangent (right only for 45°); the position of a hyperboloid is subtracted twice, so only those around
  the origin are right; asking for the side of an ellipsoid or sphere given as GQ/SQ raises TypeError, ellipsoids with three radii are lost; cylinders with negated coefficients
  have their sides exchanged; paraboloids along x open to the wrong side (a row of the matrix of eigenvectors is taken instead of a column) (C74).
* GEOReverse, OpenMC quadrics: cones get the inverse tangent, cones narrower than 12.6° become cylinders, hyperboloids become cones, spheres, ellipsoids and elliptic cylinders are
  dropped (a cell that uses them raises KeyError), cylinders whose equation is multiplied by a number are moved (`P b` is computed instead of `P.T b`) (C75).
* Round trip: a cone with an oblique axis (other than 45°) written by GEOUNED comes back from GEOReverse with the inverse tangent, in MCNP and OpenMC files (C76).
* GEOReverse, solids: after a nested union, e.g. `(1 2 : -1 3) (-2 : 4)`, the sides of surfaces remembered for one part are used for all (`joinBase`), and pieces of the cell are lost or
  pieces outside are kept; for unbounded cells such as `(7 : -1) (8 : 9)` `filterparts` adds the whole region of the second factor (C77).
* GEOReverse, bounding boxes: cells thinner than 0.1 mm (foils) are said to be empty and get no solid; cells that leave the universe through a face and have at least six corners
  are cut at their last corner (C78).
* GEOReverse, reading of files: a card continued with `&` is cut in two (the program looks for `&` in the text before it); `c` alone after blanks is taken as a card instead of a
  comment; without a newline at the end of the file the last character is lost; a blank title raises IndexError (C79).
* GEOReverse, cell cards: a density with an unsigned exponent (`1e1`) loses the geometry and such entries of TRCL are cut in two; `U 5` without `=` is not seen; `NONU=2` is taken as
  the universe; `U=-5` gives universe -5; in `FILL=3 TRCL=(...)` the transformation of the cell is also given to the filling universe; a line that begins with `COSY` hides the
  parameters after it; `LIKE` in capitals raises ValueError; a material on another line than the name raises AttributeError (C80).
* GEOReverse, surface and data cards: numbers such as `1.5-3` or `1d3` and repetitions (`2r`) in surface and TR cards raise ValueError; a file with one of the data cards PTRAC, TROPT, MGOPT,
  MPLOT cannot be read at all: the first is taken as a transformation, the last as a material without number (C81).
* Decomposition: a splitTolerance between 0 and 1e-13 with scaleUp recurses without end and never calls the kernel (C82); pieces of at most 0.01 mm³ are dropped, so that a small solid may
  vanish (C83); the error number of a cell is that of its last solid, and of the last cut by auxiliary planes, so that losses go unreported (C84); nothing stops the loops if the kernel keeps
  producing empty pieces (C85).
* Faces: `same_faces` goes through the list once and misses faces linked only through later ones (chain 0-2-1-3) (C86); `merge_periodic_uv` loses part of overlapping ranges and takes
  stacked faces for a whole turn (C88); a face that crosses the seam is not joined to the faces after it (C90); for torus faces of more than half a turn around the axis the planes
  are computed from the absolute position of a point, wrong unless the torus is centered on the line through the origin (C91); a torus face of more than half a turn around the circle
  with its ends on a cylinder is put on the wrong side (C92).
* Loading: two elements with the same envelope number swallow the elements between them, and if another envelope follows loading stops with IndexError (C94); fused enclosures lead to cells with the
  same number (C95); an element at the top of the tree gets no material, dilution or enclosure from its label, and `delLastNumber` drops the last word even if it is no number (C96); with
  several files, enclosures of later files are lost if the first has none, their numbers collide with those of cells if it has some, and everything is lost if it has no cells (C97);
  `skip_solids` with a repeated index or several negative ones removes other solids (C98); a blank line in the material file raises IndexError (C99).
* Configuration: instances of `CadToCsg` made without arguments share their default option objects, so that changing the options of one changes the other (C100), and a
  configuration file without a section gets what an earlier conversion left there (C101).
* MCNP file: the second line of a title becomes a cell card; a material without density raises TypeError while the file is being written (C102).
* OpenMC files: comments are written into the attribute `name` without escaping, so that `&`, `<` or `"` in a comment makes the XML file unreadable (C105), and `"` or a backslash the Python
  script (C107); both writers raise IndexError if there is no surface. GEOReverse merges the universes 0 and 1 of an XML file, turns elements other than cells and surfaces into None and raises
  KeyError for a cell without region (C106).
* Serpent file: the title, also the default one, is not a comment; with a universe every cell is written twice and empty cells without `void`; after a cell without comments the next card is
  glued to the definition (`-2cell`); cards of cones and oblique cylinders lack the number of the surface (C108).
* PHITS file: the second line of a title is not a comment; a model from several STEP files cannot be exported (FileNotFoundError); with unified void cells a solid of material 0 gets a density, which
  is read as part of its region, and a card `M0`; a material of the void (`voidMat`) that no cell has gets no card (C109, C110).
* Exports: the PHITS writer renames the inner and the outer void in the shared cells (and cuts the definition of the inner void), so that after an export of PHITS a second one lacks both, MCNP
  has no cell of importance 0, Serpent no `outside`, and OpenMC writes the graveyard as a cell (C111); `UCARD=0`, documented as "not written", is written as `U=0` (C112).
* GEOReverse, definition of planes: with a curved surface of both signs the planes of the sign treated last stand for both; a dropped surface turns `1 5` into `True` since `True == 1`; surface types
  without planes (ellipsoid, elliptic cylinder and cone, hyperboloid …) stay as numbers without plane, which is a KeyError later (C114).
* GEOReverse, planes of a surface: the two minor radii of an elliptical torus are taken for each other (the planes cut the torus); a torus that is not along a coordinate axis raises UnboundLocalError;
  a card `P` whose normal has not length 1 (`P 0 0 0.5 1`) stands at the wrong place, so that the bounding box of the cell is wrong (C115).
* Option Facets: the faces of a notch are joined only around the face that comes first in the list, so that a block with a notch (letter U) loses an arm if a wall comes before the floor; the
  faces used are removed by plane number, so that with two notches in one plane the wrong one may go; the test for convex edges ignores that a solid is inside out and fails for faces
  narrower than 0.1 mm (C116).
* The run as a whole: a model with an enclosure cannot be converted without void generation, neither with sorting by enclosures (KeyError) nor with simplify "full" (AttributeError); with
  forceNoOverlap a model of at least two cells with an enclosure always stops with AttributeError, the definitions of enclosures being made later (C119); a second `start()` of the same object
  always raises, since `meta_list` now holds comment cells without solids (C120).
* A cut that fails while a closed cylinder is cut is taken as one that leaves the solid whole and is not reported (C84); cells joined because they have the same envelope number lose comment and
  material (C94).
* GEOReverse, box of a nested cell: a part of less than 0.1 mm is taken as empty, so that a cube with a foil sticking out gets a box around the cube only, and the foil is lost (C121).
* Settings: `settings.voidExclude.append(5)` is not checked; the default lists of `voidMat` and `voidExclude` are shared by all `Settings` objects, so that an append to one changes the defaults of
  the next; a misspelt name in an assignment is accepted (C123).
* Void of an enclosure: when the box of an enclosure is cut and a half has several solids (a U cut across its legs), only the first of them gets a void cell; the other legs belong to no cell (C124).
* GEOReverse, export: every suffix is cut from the name of the export, so that `model_v1.2` and `model_v1.3` are written to the same files; by default the input files `run.1` and `run.2` as well (C125).
* GEOReverse, settings: `box_dimensions` and `universe_radius` have no effect after the object is made; converters made without settings share one object; the universe is the cube, not the sphere of
  the documented radius; five dimensions raise IndexError (C126).
* GEOReverse, export: the part of a material is labelled with the numbers of the container cell and of the universe written one after the other, so universe 23 in cell 1 and universe 3 in cell 12 have a
  part of the same name (C128).
- `check_sign` takes a cone for one sheet while oblique cones are written with both, and ignores the sign of the major radius of the inner part of a torus (C130): the constraint tables reason about another surface than the output has.
* `geouned_csgtocad`: a section of the configuration file with an unknown name is silently ignored, so a filter of materials under `material_filter`, the name of its method, has no effect (C131).
* GEOReverse: a surface number with a zero in front in a cell card (`-01`) makes the reading of the file endless; in a card with TRCL it leaves the numbers after it unchanged (C132).
