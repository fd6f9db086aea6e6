# Formal model of TritonRoute in Lean 4 — design

## 1. What this is

`/verif/lean/Verif/` holds a Lean 4 model of the decision and bookkeeping code of TritonRoute (the C++ in `/repo/src`) and machine-checked
proofs of the properties listed in `properties.jsonl`. Every model definition cites the file and lines it models and says where it simplifies.
`MANIFEST.json` maps properties to theorems.

Each area is a directory. `Model.lean` follows the code function by function. `Spec.lean` holds the vocabulary in which properties are stated,
written without reference to the model's helpers. `Props.lean` (and, in large areas, further files named in the manifest) holds the theorems
`cNN_…` that state property `CNN`; next to them an `example` shows a concrete case that meets the hypotheses. Where a property turned out to be
false of the code, the negation is proved with a concrete witness and the part that does hold is proved beside it.

## 2. Trusted base

* Lean 4.33.0's kernel, and the axioms `propext`, `Classical.choice`, `Quot.sound` (`#print axioms` of every property theorem is listed in
  `lean/Verif/Audit.lean` and shows at most these three). No axioms of our own, no `sorry`, no `native_decide`, no `bv_decide`. Mathlib is not used.
* The reading of the C++: the code is not run here. The only tie between model and code is the citation on each definition.
* General modelling conventions (apply everywhere unless a comment says otherwise):
  * `frCoord`/`frMIdx`/`int` are modelled as unbounded `Int` (no overflow), except where a property is about overflow or bit layout (node words are
    `BitVec 64`, cost counters and 32-bit products are `BitVec`/explicitly wrapped).
  * `std::map`/`std::set`/`std::vector` are lists or functions; iteration order of ordered containers is the order of their keys.
  * `std::priority_queue` is a list with an arbitrary selection function unless the property is about its order: theorems then hold for every
    tie-breaking rule and in particular for the actual one.
  * R-tree queries return exactly the matching entries in an arbitrary order.
  * Geometry checkers called from other phases are arbitrary functions: theorems hold for every behaviour of the checker.
  * Pointers are identifiers; objects are values.
  * C++ undefined behaviour (division by zero, `--begin()`, out-of-range index) is a distinct outcome (`none`/`.ub`) wherever the modelled code can
    reach it, or is excluded by a stated hypothesis.

## 3. Per-property plan

| id | what is modelled | how it is proved |
|----|------------------|------------------|
| C01-C03 | `frPoint::transform`, `frTransform::revert`, `updateXform`, `frBox::transform` over `Int` | case analysis on the 8 orientations + linear arithmetic |
| C04 | `frBox` set/contains/overlaps/bloat | linear arithmetic against point-set definitions |
| C05 | `operator<` of point, box, maze index | lexicographic order laws |
| C06 | `FlexWavefrontGrid::operator<`, max selection | strict-weak-order laws; selected element maximal |
| C07 | `getIdx` | div/mod uniqueness (injectivity) |
| C08-C11, C44 | node word as `BitVec 64`, grid as index-to-word map, all setters/getters, cost counters | bit-level lemmas; induction over operation histories; commuting counters below saturation |
| C12, C13 | both `initTracks` loops with C++ truncating division; binary searches | loop invariant, exact membership; induction on the list |
| C14-C17 | `search`/`expand`/`isExpandable`/`getTailIdx`/`traceBackPath` with the 2-entry direction buffer, arbitrary costs, arbitrary heap selection | invariant over search states (committed forest + frontier walks), measure for termination, closure argument for completeness; an abstract search is refined by the bit-level one |
| C18-C20 | `routeNet` and its helpers over the search model | loop invariant: source set = connected component containing one access point of each connected pin |
| C21-C24, C46 | `getGCellIdx/Box/Center`, worker loops of `searchRepair`, `initTA_helper`, batching | integer division lemmas, arithmetic progressions, parity classes |
| C25-C28, C56 | FlexDR_end.cpp, loading of wires, markers | case analysis along and across the wire, set extensionality, permutations |
| C29, C57 | `addMarker` as a state machine, `checkMetalSpacing` over a layer | invariant over histories |
| C30-C33, C47 | FlexDR_conn.cpp: merge, node map, search, pruning | sweep invariant; graph reachability (`Chain`) |
| C34-C36, C52 | TA best track scan, recorded cost, assign loop, reassignment | list lemmas; negation by witness where false |
| C37-C39, C53-C55 | lookup tables, TW row order, forbidden lengths, via tables of FlexRP | induction, interval unions, negation by witness where false |
| C40, C41, C58 | GC metal spacing and short decisions and query windows | arithmetic; 32-bit overflow is an outcome |
| C42, C43, C48-C50 | guide merge/split/search | sweep invariant; graph reachability; soundness and completeness of the attempt loop |
| C45, C51 | reroute queue | well-founded measure; conservation of tasks |
| C59, C60 | minimum step, minimum width, grid checks | circular outline walk, exact set of groups |
| C61 | end-of-line spacing with arbitrary query order | exact characterisation where no fixed shapes are involved; witness of order dependence |
| C62, C63 | cut spacing (LEF 5.8 rules), same layer and between layers | exact characterisation of pairs; windows are large enough; witnesses |
| C64, C65 | track coordinates, unique instances | ordered maps; classes of a key; modulo arithmetic |
| C66, C67 | generation, checking and selection of access points | exact membership for every round; arbitrary checker |
| C68, C69 | dynamic programming over rows and pins | optimal-path invariant of the table; arbitrary checker and caches |
| C70, C71 | division of a region's net into subnets, rerouting, writing back | reachability in the node map; cutting wires at the border preserves connections; induction over merges |
| C72–C74 | cost windows around metal shapes: wires, vias, line ends | count over the index window equals a geometric predicate; the window contains every node concerned |
| C75, C76 | cost windows around cuts, minimum cut | the same, by rule and cut |
| C77, C78 | histories of `addPathCost`/`subPathCost` | invariant: counter = first value + charges of the shapes present; combined with C72–C75 |
| C79 | blocked edges | fold over the window; edge identity |
| C80, C84 | routes printed for a net, reading of wires | reading after writing is the identity, by induction over the routes |
| C81–C83 | `mergeSplitConnFigs` | sweep invariant (covered steps of the track = finished runs + open run), splits as subdivisions |
| C85–C87 | coordinate maps, `initGrids`, `initTracks`, `initEdges` | what a sequence of map insertions adds; the sequence of `addEdge`/`setGridCost` calls run on the grid of C08–C10 |
| C88–C90 | `initMazeIdx`, track flags of access points | C85–C87 with C13 |
| C91–C93 | costs, estimate and queue order of the maze search | the search with costs refines an abstract best-first search that marks a node two steps late; the recorded history of an entry matches its walk; for every path some queue entry is within 2κ per step of it (κ bounds what history adds to a step) |
| C94 | the same search | forgetting the costs gives the search of C14–C17 with some pick function |
| C95 | `Verif/Patch`: the loop over the points of a path | induction over the rest of the path with a window of the current run |
| C96 | wire, via and patch as boxes; area as unit squares | the boxes contain three disjoint slabs of the required total area |
| C97 | cost of a patch over the grid edges under it, choice of the end | sums of non-negative costs; index box of C13 |
| C98 | map of areas, areas of leaving wires | induction over the access points and objects |
| C99 | `initDefaultVias`, `getViaRawPriority` | induction over the definitions, order of the keys |
| C100 | generated via | case analysis, geometry of the turned boxes |
| C101 | `initCutLayerWidth` | case analysis |
| C102 | `initConstraintLayerIdx` | induction over the rules |
| C103 | `buildGCellPatterns` and helpers | counting maps refine multiplicities; integer division |
| C104 | same | C103 and the definition of a fitting grid; witnesses |
| C105 | `readGuide` on characters | words and lines refine a grammar; induction over the lines |
| C106 | `writeGuideFile`, `readGuide` | decimal numerals round trip, C105 |
| C107 | `writeRefDef` on characters | text of lines round trip, case analysis per line |
| C108 | corners of outlines, spacing check | turns as cross products, quadrants, the window of the search, C29 store |
| C109 | `initGCell2BoundaryPin`, `initDR_mergeBoundaryPin` | index arithmetic along each axis, induction over the regions a wire crosses |
| C110 | `searchRepair` and the calls of `main`, around the write-back of C27; router and clean-up of a net are arbitrary functions | invariants over workers, batches and iterations; C24 separates the regions of a batch |
| C111 | offsets of the calls of `main` | at most one offset puts a coordinate on a border |
| C112 | `getNet` | case analysis over the kinds of objects |
| C113 | shapes of the checker, `updateGCWorker`, the queue of `route_queue`; patches are arbitrary | invariant over the steps: everything known, last patches part of the routes |
| C114 | maximal rectangles (contract of boost::polygon, as a search), fixed flags | a rectangle that cannot grow by a unit is maximal; growing ends in a hull |
| C115 | `checkMetalShape_rectOnly`; areas as numbers of unit cells | counting; a maximal rectangle of connected metal that is not all of it has a concave corner on a side |
| C116 | DEF callbacks as a reader of records; pins are positions | invariant over the prefixes of the file: net lists and back pointers |
| C117 | the same; `none` for the end of the program | pointwise invariants over the prefixes; one record is accepted iff it fits |
| C118 | `frRegionQuery::init`, `query` (R-tree as a list, contract of boost::geometry) | membership of the list of shapes; boxes are normalised |
| C119 | `addDRObj`, `removeDRObj`, `initDRObj`; edits as the router makes them | invariant: entries are the live objects with their present shapes |
| C120 | `getDefVias` | arithmetic of the matrix; sorted layers of a via are three in a row |
| C121 | `getLefMacros`, `getLefPins`, `getLefObs`, orientations | induction over the items; case analysis over the orientations |
| C122 | `modMinSpacingCostVia`, `modCutSpacingCost` | geometry of integer roots; exact set of points |
| C123 | `modMinSpacingCostPlanar` | exact on the first track; counterexamples for the others |
| C124–C126 | `FlexTAWorker` state in later passes: `initCosts`, `assign`, `assignIroute*`, `updateOthers` | invariant (stores are a permutation of a fresh build, costs zero iff no conflict), measure for termination |
| C127 | `initIroute*`, `saveToGuides`, `initTA`; guides as a list with their wires | invariant over batches of panels; the accumulators are minima and maxima over the neighbours |
| C128 | `initIroute_helper_generic`, the loops over pins and access points | exact conditions; counterexamples for the rest |
| C129, C130 | `initFixedObjs`; composition with C125 | exact set of points per track; composition |
| C131, C132 | `genGuides_final` with the predecessors left by `genGuides_astar` | the predecessors form a tree with a rank (invariant of the rounds); an end that something needs is never cut; induction along the tree |
| C133 – C135 | `initNet_term_new`, `initNet_termGenAp_new`, `getTrackLocs` for a terminal, with the program's exit and the division by the grid as outcomes | membership of each loop's result by induction on the rectangles; the metal is the set of points of the placed rectangles (C02) |
| C136 | `initNets_numPinsIn` | fold over the points: least box; count |
| C137 – C139 | `initMazeCost`, `mazeNetInit`, `mazeNetEnd` and the charges of `route_queue_main`; the search and the checker are arbitrary (`WRun`) | each step is a list of operations on the grid; what a list does to a counter is the number of its operations there; invariant over all runs |
| C140 – C142 | overrides, off-track marks and blocked edges set around each net | bits: last operation on an edge decides; invariant over all runs |
| C143 | `initMazeCost_via_helper` | induction on the access points |
| C144 – C146 | marker counters of the grid with the two sets of remembered nodes (`HState`), `addHistoryCost` and `markerCostDecay`; the shapes found at a violation are arbitrary | the nodes of each shape in closed form; invariant over all histories |
| C147 | `initMazeCost_guide_helper` around each net | induction on the guides; index ranges by sortedness |
| C148 – C150 | the GCells of terminals, by rectangles or access points, and cover guides (`genGuides_gCell2PinMap`, `genGuides_addCoverGuide`) | the index of a coordinate by the lines between GCells; induction on rectangles and pins |
| C151 | sums and lines of `FlexDR::end` (64-bit sums) | induction on nets |
| C152 | entries of `reportDRC`; printing of a quotient with six digits | per entry; arithmetic on powers of ten |
| C153 – C155 | LEF58 cut spacing (`checkLef58CutSpacing_main` and its parts): counting neighbours with early exit, required spacing, corners of the metal over a cut | the count as a number of list elements whatever the order; outlines as in C57 – C61 |
| C156, C157 | texts of LEF58_CUTCLASS and LEF58_SPACING as lists of words; the reading functions of `io.cpp` with their flags; linking of second layers | a grammar of texts (`Text58`); induction on the rules of a text; case analysis on clauses |
| C158 | storing and linking of plain SPACING rules of cut layers | invariant of the stored lists, induction on the rules |
| C159 – C162 | remaining shape checks of the checker: steps at line ends, holes, their combination over layers and nets, patches | outlines as circular lists; the area of a polygon as the number of cells with non-zero winding number, by exchanging sums; induction on lists |
| C163 – C167 | reading the layers of LEF: numbers and names, widths, steps, spacing, LEF58_MINSTEP, LEF58_CORNERSPACING | statements and texts as lists; induction on them; the rules stored composed with the checker's theorems |
| C168, C169 | command line and parameter file as lists of words and characters | induction on the list; last use of each option |
| C170 | the map of vias by priority as a sorted list | invariant of insertion; uniqueness of sorted lists |
| C171, C172 | the parallel loops as interleavings of the threads' steps | a step of a slot comes from one thread only; induction on interleavings; counterexample for plain increments |
| C173 | the VIA statements as records; the map from layer numbers to statements | case analysis on the stack of layers; induction on the file |
| C174, C175 | outlines as lists of vertices; edges and corners with indices for the pointers | closed form of the loop by induction; counterexample for fixed corners |
| C176 | comparison of nets with 32-bit areas; any sort by it | strict order; uniqueness of sorted lists; permutations |
| C177, C178 | parallel loops as small steps of rounds with private memory that read the design and collect results in a critical section | invariant over all interleavings; equality with the sequential run; counterexample for one thread in track assignment |
| C179, C180 | composition: detailed routing with threads, the check of the connections, the written file; all parallel loops of the program in sequence | invariant over all calls of the repair, correctness of the check, round trip of the file; uniqueness of each loop carried from stage to stage |
| C181 | pins of a net of a region of the first iteration, wires of the guides | induction over the chain of guides and terminals between two terminals; each guide leads from the region of one place to the region of the other by the crossing places of its wire (C109), which track assignment (C127) leaves |
| C182 | composition: guides of a net (C131, C132), the two rounds of track assignment (C127), regions of the first iteration (C181) | the chain of GCells between two pins gives a chain of guides and pins; the repair round gives every guide its wire between its GCells |
| C183 | `compf` as a function from components to words; the grammar of components as a reader written from def.y | the statement is cut at `+`; each option is read back by its own case; an option that no case accepts spoils the statement |
| C184 | `cs`, `endfunc` and the counter `numObjs` as a machine over the calls of the library; a reader of sections | induction over the statements of a section and over the sections |
| C185 | `%g` as rounding to six digits, ties to even; tracks, rows, GCell grid and their grammar | the power of ten of the sixth digit is characterised; rounding is idempotent |
| C186 | `defiBox::addPoint` and the die area | computation |
| C187 | `netNamef`, `netf` with the routes of `writeNet` (C80–C84); grammar of nets | as C183; connections end at the first `+`; paths are separated by NEW |
| C188 | `snetf` and the grammar of special nets; wires as lists of points, vias, widths | as C187; a wire is read back point by point; counterexamples by computation |
| C189 | the pins of `cls` and the grammar of pins with its flag for open ports | as C183; the flag is followed through the ports |
| C190 | `routeNet_setSrc`, `routeNet_getNextDst` and the two corners kept by `traceBackPath`, in the model of C18–C20 | invariant of the loop: the corners are the box of all connected nodes; nodes of a path lie between its corners |
| C191 | the vias of `cls` and their grammar | as C183; the five parts of a rule are read together |
| C192 | the blockages of `cls` and their grammar, with polygons begun and finished | as C183, on the flat list of words |
| C193 | `ndr` and the regions of `cls` with their grammar | as C183 |
| C194 | fills and slots of `cls` with their grammar | the first shape already stops the reader |
| C195 | the calls of a whole file with the texts of C183–C193, and a reader of whole files | induction over parts and statements; every text has its `;` at its end only |
| C196 | the text of a property definition and the rule of the grammar; types by first definition | cases; induction over definitions |
| C197 | the text of a group and the rules of the grammar for members and options | splitting into head and options; cases |
| C198 | the first two statements and their rules | cases on version and statement |
| C199 | the words of a complete file and a reader that keeps the definitions so far | simulation of the reader of C195; induction over blocks; C196, C198 |
| C200 | the loops of the callback for via rules, with the map of C173 | the six orders; cases |
| C201 | the models of C177, C179 and C199 put together | composition; the nets of the echoed items are the echoed nets |
| C202 | LEF as a sequence of statements, rounding and cutting off of exact products, the units of DEF and placed rectangles | induction over the file; arithmetic of rounding |
| C203 | the search structure of a region, started from its nets and changed at rip-up and at every new wire, via and patch | invariant: the entries are a permutation of those of the present objects; boxes as sets of points |
| C204 | the search structures of the checker on top of its shapes (C113): entries taken out with the old objects, put in with the new ones, at arbitrary addresses | invariant: entries are a permutation of the objects, objects are made of the present shapes; refinement of the model of C113 |
| C205 | lowest and highest layer of the signal pins of a cell, the range made of them, the second layer of access points; on top of the classes of C65 | invariant of the minimum and maximum; composition with C65; witness for the highest layer |
| C206 | which objects of the design the check of a candidate skips, the net of the checker given to the candidate by each caller, the rectangles of a layer made of the shapes | folds over the shapes found; composition with C57 and C114 for the failure |
| C207 | the counters of the reader, of a region and of a panel, every object with its number in the order of making, sets compared by number | invariants of the reader for LEF and for DEF, sorted lists with the same members are equal |
| C208 | the ranges added for one process, the tables with them, the vias a wire may not run through | the characterisation of stored ranges of C53, arithmetic of the distance to the end of the metal |
| C209 | the groups of instances formed after reading, with division by zero as an outcome | induction over instances with the list of groups found, remainders as divisibility |
| C210 | the loop over layers, GCells and track patterns after the grid of GCells is made, with division by zero and the lookup of a missing layer as outcomes | induction over the rounds of the loop; composition with C104 and C12 |

Properties proved only in part (theorems end in `_partial`):

* C10 — see the note in the manifest; the full statement is in `properties.jsonl`.
* C35 — the cost recorded after track assignment is that of the last track tried; the negation is proved, and the case where the property holds.
* C38 — the row comparator is not a strict weak order in general; proved for the tables for which it is.
* C54 — the forbidden lengths are exact only for the layers and directions the code handles correctly; the faults are proved with witnesses.
* C128 — proved for terminals whose pins all have access points; false otherwise (witnesses proved).
* C123 — exact on the lowest of the tracks near a shape only; false on the others (witnesses proved).

## 4. Not modelled

the text level of LEF/DEF (third party parsers; C80–C84 start from the path elements they deliver; C183–C189 and C191–C199 have the grammar of the statements over words, not the splitting of text into words), Boost R-tree and polygon internals (assumed to return exactly the intersecting entries;
unions of polygons are given as lists of boxes), timing/profiling, the OpenMP runtime (only the schedule/batch structure is modelled), memory
management. Within the modelled files, what section 5 does not list is not modelled.

## 5. Coverage of the code

Lines of `/repo` cited by definitions of the model (generated from the citations):

| file | lines | cited | ranges |
|------|-------|-------|--------|
| `src/FlexRoute.cpp` | 92 | 44 | 44-51, 66-101 |
| `src/db/drObj/drAccessPattern.h` | 214 | 29 | 37-42, 58-80 |
| `src/db/drObj/drNet.h` | 239 | 14 | 107-114, 130-135 |
| `src/db/drObj/drShape.h` | 313 | 21 | 169-184, 285-289 |
| `src/db/gcObj/gcNet.h` | 144 | 42 | 44-85 |
| `src/db/gcObj/gcShape.h` | 473 | 104 | 153-174, 264-345 |
| `src/db/infra/frBox.cpp` | 59 | 25 | 35-59 |
| `src/db/infra/frBox.h` | 143 | 105 | 36-140 |
| `src/db/infra/frOrient.h` | 143 | 51 | 41-59, 67-85, 90-102 |
| `src/db/infra/frPoint.cpp` | 76 | 42 | 35-76 |
| `src/db/infra/frPoint.h` | 79 | 40 | 37-76 |
| `src/db/infra/frSegStyle.h` | 107 | 53 | 35-39, 56-103 |
| `src/db/infra/frTransform.h` | 159 | 120 | 37-156 |
| `src/db/obj/frAccess.h` | 217 | 176 | 40-215 |
| `src/db/obj/frBlock.h` | 345 | 99 | 92-109, 164-244 |
| `src/db/obj/frBlockObject.h` | 65 | 28 | 36-63 |
| `src/db/obj/frBoundary.h` | 89 | 19 | 57-75 |
| `src/db/obj/frGuide.h` | 126 | 3 | 106-108 |
| `src/db/obj/frInst.cpp` | 71 | 14 | 58-71 |
| `src/db/obj/frMarker.h` | 148 | 102 | 39-140 |
| `src/db/obj/frNet.h` | 150 | 18 | 84-101 |
| `src/db/obj/frShape.h` | 562 | 269 | 193-330, 429-559 |
| `src/db/obj/frTrackPattern.h` | 88 | 60 | 37-96 |
| `src/db/obj/frVia.h` | 296 | 30 | 79-108 |
| `src/db/taObj/taShape.h` | 196 | 130 | 71-200 |
| `src/db/tech/frConstraint.h` | 1977 | 933 | 218, 292-360, 794-844, 972-1024, 1112-1870 |
| `src/db/tech/frLayer.h` | 501 | 69 | 94, 119-125, 144-166, 261-274, 282-304, 462 |
| `src/db/tech/frLookupTbl.h` | 262 | 77 | 73-124, 183-197, 230-239 |
| `src/db/tech/frTechObject.h` | 297 | 96 | 48, 56-64, 73-78, 106-118, 125-128, 136-159, 253-291 |
| `src/db/tech/frViaDef.h` | 182 | 8 | 109-116 |
| `src/db/tech/frViaRuleGenerate.h` | 108 | 70 | 36-105 |
| `src/dr/FlexDR.cpp` | 2016 | 801 | 78-115, 146-274, 1049-1070, 1253-1277, 1359-1403, 1474-2015 |
| `src/dr/FlexDR.h` | 765 | 1 | 268 |
| `src/dr/FlexDR_conn.cpp` | 1165 | 1113 | 37-1010, 1026-1164 |
| `src/dr/FlexDR_end.cpp` | 554 | 514 | 33-546 |
| `src/dr/FlexDR_init.cpp` | 4031 | 3037 | 40-356, 386-1810, 1837-2165, 2212-2373, 2675-2836, 3134-3157, 3187-3231, 3239-3400, 3465-3506, 3555-3794, 3806-3826, 3855-3900, 3918-3945, 3992-4025 |
| `src/dr/FlexDR_maze.cpp` | 3437 | 2758 | 36-1562, 1612-1618, 1752-1780, 2029-2256, 2471-3437 |
| `src/dr/FlexDR_rq.cpp` | 238 | 206 | 34-239 |
| `src/dr/FlexGridGraph.cpp` | 479 | 386 | 38-423 |
| `src/dr/FlexGridGraph.h` | 959 | 779 | 32, 78-128, 138-186, 193-561, 567-716, 735-737, 773-928 |
| `src/dr/FlexGridGraph_maze.cpp` | 667 | 632 | 35-666 |
| `src/dr/FlexMazeTypes.h` | 87 | 52 | 33-84 |
| `src/dr/FlexWavefront.h` | 200 | 127 | 42-165, 185-187 |
| `src/frBaseTypes.h` | 267 | 12 | 58-67, 211-212 |
| `src/frDesign.h` | 86 | 5 | 68-71, 78 |
| `src/frRegionQuery.cpp` | 632 | 462 | 76-478, 517-575 |
| `src/gc/FlexGC.cpp` | 156 | 21 | 50-70 |
| `src/gc/FlexGC_impl.h` | 247 | 15 | 66-78, 114-115 |
| `src/gc/FlexGC_init.cpp` | 886 | 844 | 38-881 |
| `src/gc/FlexGC_main.cpp` | 3723 | 3158 | 36-253, 258-410, 457-600, 656-957, 1097-1179, 1219-1262, 1304-1393, 1403-1480, 1513-1744, 1784-1810, 1849-2660, 2720-3613, 3618-3627, 3635-3694, 3699-3709 |
| `src/gc/FlexGC_rq.cpp` | 264 | 230 | 36-265 |
| `src/global.cpp` | 243 | 15 | 52-62, 86-88, 97 |
| `src/io/defw.cpp` | 3408 | 2194 | 52-60, 102-128, 148-266, 278-283, 301-712, 1209-1673, 1766-1829, 1840-1862, 1895, 1906-1931, 1975-1980, 2000-2266, 2272-2451, 2459-2507, 2769-2902, 2925-2930, 3010-3409 |
| `src/io/io.cpp` | 5370 | 3971 | 72-1124, 1803-2572, 3168-4495, 4520-4899, 4907-5003, 5010-5352 |
| `src/io/io.h` | 194 | 8 | 40, 46-47, 76-80 |
| `src/io/io_guide.cpp` | 1047 | 1012 | 36-1047 |
| `src/io/io_parser_helper.cpp` | 962 | 594 | 46-302, 542-647, 732-962 |
| `src/io/io_pin.cpp` | 152 | 120 | 34-153 |
| `src/main.cpp` | 146 | 106 | 40-145 |
| `src/pa/FlexPA.cpp` | 114 | 13 | 48-60 |
| `src/pa/FlexPA.h` | 284 | 35 | 75, 247-280 |
| `src/pa/FlexPA_init.cpp` | 411 | 274 | 39-122, 131-133, 156-180, 201-223, 250-268, 292-411 |
| `src/pa/FlexPA_prep.cpp` | 2405 | 2038 | 104-515, 593-886, 899-917, 922-1529, 1597-1690, 1710-2305, 2392-2406 |
| `src/rp/FlexRP_prep.cpp` | 882 | 763 | 66-69, 88-532, 569-882 |
| `src/ta/FlexTA.cpp` | 363 | 317 | 84-400 |
| `src/ta/FlexTA.h` | 249 | 29 | 104-128, 154-157 |
| `src/ta/FlexTA_assign.cpp` | 1138 | 1105 | 35-1139 |
| `src/ta/FlexTA_end.cpp` | 54 | 22 | 33-54 |
| `src/ta/FlexTA_init.cpp` | 896 | 742 | 34-490, 546-628, 660-817, 857-900 |
| `src/ta/FlexTA_rq.cpp` | 124 | 97 | 28-124 |

Cited lines in total: 31499.

## 6. Findings

Behaviours of the code that a user would not expect, found while modelling. Those with a theorem name are proved of the model.

Geometry and transforms
* A LEF macro whose ORIGIN exceeds its SIZE is misplaced; a negative bloat larger than half the box flips it; a clip offset ≤ −clip size makes workers overlap.

Grid graph and costs
* `addToBits` saturation: a cost of 256 is stored as 0 when the intermediate sum is truncated; `decayMarkerCost` falls through.
* A via-turn check in `getNextPathCost` (413) is dead; the choice between DRC and marker cost is swapped there.
* `routeNet_setSrc` dereferences null if no pin has access points.

Track assignment
* The cost recorded is that of the last tried track (C35). With an empty track range a track outside the panel may be taken.

Technology tables
* The two-width row order is not a strict weak order and the row chosen may be too wide (C38). The 2-D lookup decrements a begin iterator for queries at or below the first key.
* Via-to-via minimum spacing in y on the other layer uses the wrong extent (`c54_other_layer_y_missed`); the minimum-cut test ignores the direction of the move and a `continue` skips the second test (`c54_min_cut_order_dependent`). Merging then shrinking ranges forbids lengths where two rule ranges touch.
* `isTwoCuts` is inverted (frConstraint.h 1209-1211); `setWrongDirSpace` takes a bool (729-732); `getCutArea` returns a bool (`c62_area_ignored`).

Geometry checker
* Squared distances overflow 32 bits (`c40_overflow`); minWidth² in the short check is unsigned 32-bit; a negative required spacing would be squared. Layers with two-width tables are required spacing 0. The same-net override may exceed the search window (`c41_same_net_missed`).
* The minimum-area check is disabled. Typed MINSTEP rules never fire (`c59_typed_never`); an outline with a single long edge is skipped (`c59_one_long_edge`). Manufacturing grid 0 is a division by zero (`c60_grid_zero`).
* The end-of-line check depends on the query order (`c61_order_dependent`).
* Same-net cut rules are applied to different nets (`c62_same_net_applies_to_others`); the ADJACENTCUTS check of a target net is incomplete (`c62_target_incomplete`); the inter-layer same-net search window is that of the other rule (`c63_same_net_missed`).
* `patchMetalShape` hard-codes layer 10.

Connectivity
* The check of a one-pin net returns false; untouched pins are ignored; the pass is not idempotent; crossings of two wires in their interiors are not connections; zero-length wires can result from splitting and shrinking. The style carrier of merged wires may come from another group.

Guides and queue
* The touching check counts M1 crossings; an empty line index exits; one-pin nets keep no guides.
* Ripup modes 1 and 2 route a net once even if the reroute limit is 0; area products of `sortRerouteNets` overflow 32 bits; the vertical quick DRC uses direction E (FlexDR_maze.cpp 2859).

Workers
* Merging overlapping wires that start at the same point loses the outer end style (`c26_overlap_style_lost`). Zero-length wires on a worker's border are lost on loading (`c56_zero_length_lost`). Patches added by the checker to unmodified nets are not written back. In iterations 0 and 1, `initMarkers` counts 0 violations as 1. Two workers sharing a violation may increase the total (`c27_shared_violation_grows`).
* A patch on the middle of a wire forms its own subnet (`c70_patch_apart`); overlapping wires hide a T-junction (`c70_overlap_missed`). `initNets_boundaryArea` iterates over the wrong result list.

Pin access
* Rounding of a half track overwrites a real track (`c64_track_lost`); negative origins are taken modulo an unsigned spacing (`c65_negative_origin`); partly covered instances share points (`c65_partly_covered`); a via that must stay in the pin is compared with a bounding box only (`c67_via_not_inside`).
* A row with one cell without patterns is left unassigned (`c68_row_none`); a pattern without any via is rejected (`c69_no_via`); of one-pin cells only the first access point is tried (`c69_single_pin`); pins without access points shift the assignment of the others (`c69_missing_pin`); the check window of patterns uses one coordinate for three (`c69_window_misses`).
* `refBlock2PinLayerRange.find(...)` is dereferenced without a check; access points of top-level pins are never used; the tracks of the second layer are used for the other axis even if it has the same direction; the check window in pin access is a fixed 3000 units.

Cost windows
* A shape narrower than the wire can lie inside its metal without being charged, because only the corners are compared (`c72_narrow_missed`). A prescribed via larger than the default via, or an end-of-line reach larger than the spacing, is missed by the window (`c73_special_via_missed`, `c73_within_missed`). MINIMUMCUT rules with LENGTH charge only positions off the corners of a shape (`c76_beside_missed`). `modViaForbiddenThrough` leaves out the end node (`c78_through`).
* The cost functions marked "safe access" do not check the index: with a default via below the lowest layer they write at layer index -1 (`c78_outside`). Blockages are bits, not counters: unblocking frees edges another shape blocks (`c79_unblock`). `getCutArea` returns a `bool`, so area rules compare with 1.

Files
* `splitVia_helper` compares the coordinate across the wire, so no wire is ever split at a via (`c83_vias_do_not_split`); the third call repeats `isH = 0`. Wires of two tracks are split although they do not cross, and then real crossings are missed (`c83_crossing_missed`). Extensions inside a merged wire and wires of length zero are lost (`c82_extension_lost`, `c82_point_wire_lost`).
* Wires are written without their width, so a wire of another width is read back with the default width; patches are not read (`c80_round_trip` covers wires and vias). A pre-routed path with a bend is read as one slanted wire (`c84_bend_lost`). `writeFromDR` prints that it skips the file when no name is given but writes it nevertheless.

Maze grid
* An existing via between two layers of the same direction gets no edge, so its route cannot be found again (`c89_same_direction_no_edge`). Off-track access points keep their on-track flags on layers restricted to their tracks and outside the routing layers (`c90_restricted_layers_not_seen`). For an access point at the lowest coordinate the marks are read from another node (index −1 in x or y).

Costs of the maze search
* The penalty for a via at a forbidden distance from a turn is never applied: the local length is tested before it is assigned (src/dr/FlexGridGraph_maze.cpp:406-418; `c91_via_after_turn_not_penalised`). The roles of the marker and the violation factor are swapped between the via penalty and the turn penalty.
* The search is not optimal, because a node is closed with the first direction it is served in, and bends cost 1 (`c93_not_optimal`: 14 instead of 13); it is nearly optimal (`c93_near_optimal`).

Minimum-area patches
* The loops that should add the via or patch at the outer end of a wire leaving the region run over the objects at the access point instead of those at the outer end, so that metal is missed (src/dr/FlexDR_init.cpp:1755, 1786; `c98_far_via_missed`).
* If neither end of a run has room, the patch leaves the route box (`c97_may_leave_box`). The patch width is rounded down to an even number, so with an odd width the minimum area is not reached (`c96_odd_width_short`). The first node of a row or column is never checked for marks.

Setting up the technology and the guides
* The vias between two layers are kept in a set ordered by address; among vias of equal rank the default via depends on that order (`c99_tie_depends_on_order`).
* A generated via exchanges x and y of the metal but keeps the cut, so an unsymmetric cut can lose its enclosure (`c100_cut_uncovered`).
* The offset of a guide with a negative coordinate is computed as pitch minus a negative remainder instead of plus (src/io/io_parser_helper.cpp:806-811; `c104_negative_guides`); with a negative die corner the first line lies inside the die (`c104_negative_die`); the check for at least one GCell uses the offset instead of the start (`c104_no_gcell`); the loop over the layers runs one too far if their number is even (line 893; `c104_even_layers_throw`).
* The loop that splits a line of the guide file stores the last word again if the line ends with a blank, so such lines, and files with carriage returns, are rejected (src/io/io.cpp:4937; `c105_trailing_blank`). A guide before the first net is stored for the null net (`c105_guide_before_net`).
* Guides across layers are written with a layer name ending in `.5`, which the reader rejects (`c106_via_guide_unreadable`).
* The reference DEF gets a second VIAS section if the header of the first one is on two lines (`c107_split_header`), and no declaration of the generated vias without a COMPONENTS line (`c107_no_components`).
* A spacing rule for concave corners is not applied to the angle of an L-shaped wire: it looks for a maximal rectangle that ends in the corner, and none does (src/gc/FlexGC_main.cpp:829-831; `c108_concave_missed`). Rules without SAMEXY are not checked at all.
* A wire along the common border of two regions gives boundary pins to only one of them (src/dr/FlexDR.cpp:1258-1277; `c109_wire_along_border`).
* Patches made by the initial check of a region (`needRecheck`, one process node only) are added to the checker's shapes but not to the routes; they stay there until their net is rerouted (src/dr/FlexDR_maze.cpp:2043-2046; `c113_initial_patches_counterexample`). In the same mode `main` looks for patches before it updates the rerouted net, so it patches the route before (src/gc/FlexGC_main.cpp:3702-3709).
* The fixed flags of corners are computed from the single rectangles of a net, which are cuts; on metal layers convex corners are never and concave corners always fixed (src/gc/FlexGC_init.cpp:626-643; `c114_corner_flags`).
* A pin named by two nets is listed by both but knows only the second; two nets or pins of the design with one name are not noticed (src/io/io.cpp:565-615; `c116_twice`). Only components are checked for double names.
* USE words of DEF and LEF other than SIGNAL, CLOCK, POWER and GROUND (RESET, SCAN, TIEOFF, ANALOG) end the program (src/io/io.cpp:848-867, 908-927, 4202-4223; `c117_accepts`, `c121_accepts`).
* Polygons of pins and obstructions are not entered into the search structure of fixed shapes: only a message is printed (src/frRegionQuery.cpp:200-266; `c118_polygons_missing`).
* Vias defined in DEF get no cut class, and `initDRObj` does not enter patches (src/frRegionQuery.cpp:550-575); it is called before there are any.

Track assignment
* The box that stands for the end of a wire is moved on from track to track (`box2.transform` of itself) instead of being placed anew (src/ta/FlexTA_assign.cpp:84-106). From the second track near a shape on, points that are too near are not blocked (`c123_second_track_wrong`), and where the distance exceeds the spacing the root of a negative number is converted to an integer (`c123_third_track_undefined`).
* The area of a cut rule with AREA is read as a truth value, so the rule applies to cuts of any size (src/ta/FlexTA_assign.cpp:386-490; `TaCutHit`).
* After the first round of both directions the wires of a net need not meet: wires of the first pass end in the centre of a GCell, not at the tracks chosen in the second pass (src/ta/FlexTA_init.cpp:286-372; `c127_first_round_gap`). Later rounds repair it.
* If terminals lie at the ends of a guide but none has an access point in the panel, as for pins of the design, the wire is pulled towards coordinate 0 (src/ta/FlexTA_init.cpp:212-284; `c128_pulled_to_zero`).
* A pin without an access point hides the access points of the pins after it, because `pinIdx` is not increased (src/ta/FlexTA_init.cpp:156-195, 247-278; `c128_hidden`).
* From terminals only the width of the layer is kept as distance, whatever the spacing rule; tables by width and length are looked up with the width of the object only, not the larger of object and wire (src/ta/FlexTA_init.cpp:875; `FixSpacing`).
* The metal of the first pin of a net is used to join parts of the guides even if pins must not be passed through (`ALLOW_PIN_AS_FEEDTHROUGH` off): the search may leave the first pin at several places (src/io/io_guide.cpp:879-910; `c131_connected` with `k = 0`).
* A made-up access point of a terminal of the design lies on the centre line rounded towards zero to the manufacturing grid; if the terminal is not drawn on the grid it may lie beside the metal (src/dr/FlexDR_init.cpp:1115, 1151; `c133_off_grid`). Without a manufacturing grid (0) the program divides by zero.
* In the first iteration a rectangle that reaches one unit into a region at negative coordinates makes the program exit, because its middle is rounded towards zero to the upper right corner, which is skipped (src/dr/FlexDR_init.cpp:1013-1023; `c134_negative_corner`).
* `pinIdx` is not increased for pins without pin access, so the access point chosen for a later pin is compared with the wrong entry and gets cost 1 (src/dr/FlexDR_init.cpp:1369-1379; `c135_choice_lost`).
* Terminals of macros are charged before the vias of access points are known and put back with them known; a counter may keep a charge that no shape makes (src/dr/FlexDR_init.cpp:4011-4016, 2360-2362, src/dr/FlexDR_maze.cpp:1752-1780; `c137_macro_drift_witness`).
* A patch of the checker is not charged when added but taken off when its net is routed again; the charge of another net's shape is lost and the place looks free (src/dr/FlexDR_maze.cpp:2128-2131, 2198-2216; `c139_patch_uncharged_witness`).
* After a net is routed all edges on the lines from its access points are marked off-track, also those on tracks that were not marked before (src/dr/FlexDR_init.cpp:2122-2165; `c141_marks_left_witness`).
* The walk along such a line reads coordinates outside the grid when the border is nearer than ten widths (src/dr/FlexGridGraph.h:291-310; `c141_walk_defined`).
* An access point unblocks the edges it allows even if a fixed shape blocks them, and of two access points at one edge the last decides (`c142_blocked`).
* A patch found at a violation raises the marker counters of vias up and down without remembering the nodes; these never decay (src/dr/FlexDR_init.cpp:2827-2831, 3149-3157; `c145_patch_never_forgotten`).
* The marker counter of wires is a byte: the 26th violation at a node sets it to 0, and the place looks clean (src/dr/FlexGridGraph.h; `c144_wraps`).
* For a patch reaching beyond the last grid line the index of the line is the number of lines: nodes of the next row, or memory outside the grid, are charged (src/dr/FlexDR_init.cpp:2817-2826; `c144_patch_beyond`).
* The report prints coordinates with the six digits `ostream` uses by default: beyond 1000 microns the last thousandths are lost, and violations a few units apart have the same box (src/dr/FlexDR.cpp:1896-1897; `c152_digits_lost`).
* Guides around an access point are entered nine times: the loops over the neighbours do not use their indices (src/io/io_guide.cpp:561-568; harmless, `c150_cover_guides`). Terminals of the design get none (`pinAccessIdx` is -1 there).
* With any LEF58 cut rule for one net on a layer, general LEF58 cut rules of the layer are checked only within one net (src/gc/FlexGC_main.cpp:3570-3580; `c154_other_nets_missed`). LEF58 rules with LAYER are checked only with CUTCLASS and CONCAVECORNER or NONEOLCONVEXCORNER, and the conditions after CONCAVECORNER are ignored (`c154_second_layer`).
* In the count of neighbours the cut itself is taken off even if it is of another class than the rule and was not counted: it needs one neighbour more (`c153_other_class`).
* A LEF58 ADJACENTCUTS rule is kept only if a known CUTCLASS is its last clause: without it, or with TO ALL, NOPRL, SIDEPARALLELOVERLAP or SAMEMASK after it, the `;` is taken for an unknown word and the rule dropped (src/io/io.cpp:2524-2552; `c156_rules_read`). LAYER … CUTCLASS c without an option is dropped too, and all rules that come before the definition of their class.
* TWOCUTSSPACING without a number makes the reading loop for ever (src/io/io.cpp:2437-2460; `c156_never_ends`).
* A LEF58 cut rule with an unknown second layer makes the program read through a null pointer; plain rules in the same place are skipped with a message (src/io/io_parser_helper.cpp:192-203; `c157_second_layers`).
* A plain same-net cut rule between two layers is dropped without a message if there is no rule for different nets (src/io/io_parser_helper.cpp:183-189; `c158_same_net_alone`).
* The checker never reports a minimum-area violation: the call is commented out (src/gc/FlexGC_main.cpp:1875; `c161_min_area_unchecked`). MINENCLOSEDAREA with WIDTH and LEF58_MINSTEP without NOBETWEENEOL are never checked (`c160_width_skipped`, `c159_eol_step_iff`).
* A MINSTEP statement without MAXEDGES is never checked, because its type is then OUTSIDECORNER by default and the check skips all rules with a type (src/io/io.cpp:3640-3671; `c164_steps_unchecked`).
* The names of MASTERSLICE layers are lost: the layer read is a local variable that is never stored (src/io/io.cpp:4081-4095; `c163_masterslice_lost`).
* In LEF58_MINSTEP the values of MAXEDGES, MINADJACENTLENGTH and NOBETWEENEOL are kept from one statement to the next (src/io/io.cpp:1803-1870; `c166_carried_over`). In the ENDOFLINE rules of LEF58_SPACING `keyword2` is kept, so that after a rule with TOCONCAVECORNER or TONOTCHLENGTH the others are dropped (src/io/io.cpp:1732-1800).
* LEF58_SPACINGTABLE and the ENDOFLINE rules of LEF58_SPACING are stored in lists that no other code reads: they are never checked (not modelled).
* In LEF58_CORNERSPACING the second spacing of a table with one row is lost, and a last row shorter than the others makes the program read beyond its end (src/io/io.cpp:3346-3365, 3438-3459; `c167_one_row`, `c167_mixed`). EXCEPTJOGLENGTH is passed over.
* An option at the end of the command line without its value crashes the program, and no option is required: without files the router runs on nothing (src/main.cpp:101-135; `c168_mistakes`).
* The parameter file must have five lines that count, not five parameters: five lines for the same parameter are accepted, while a file with LEF, DEF, guides and output is refused (src/main.cpp:79; `c169_five_lines`). It is opened for reading and writing, so that a file without write permission is refused. The six parameters drouteOnGridOnly… are stored and never read. For the process GF14 the user's layers for vias in pins are overwritten (src/FlexRoute.cpp:44-51; `c169_process`).
* A via and its mirror image have the same rank for pin access; only one of them is tried, and which one depends on the addresses of the definitions (src/pa/FlexPA_init.cpp:298-302; `c170_mirror`).
* The counters of pins without access points are incremented by several threads without `omp atomic` (src/pa/FlexPA_prep.cpp:1088-1092; `c172_lost`). In the same loop `layerNum2ViaDefs[layerNum + 1][1]` inserts an entry into a shared map where the layer has no via with one cut (src/pa/FlexPA_prep.cpp:239, 711), a data race not modelled.
* A VIA with two LAYER statements for the same layer is not refused: the shapes of the first are lost and those of the second are stored as cuts (src/io/io.cpp:4531-4672; `c173_twice_accepted`). Vias of the same name are both stored with a printed error. VIARULE GENERATE rules are stored and used nowhere.
* Whether a corner of metal is fixed is computed from a list that has cuts only: on metal no convex corner is ever fixed and every concave one is (src/gc/FlexGC_init.cpp:620-700; `c175_metal`, `c175_witness`). As a consequence cut spacing to concave corners is skipped between a fixed cut and a corner made by routed metal (src/gc/FlexGC_main.cpp:3121, 3271).
* The comparison of nets multiplies 32-bit sides of boxes, which overflows for a box of 50000 by 50000 (src/dr/FlexDR_maze.cpp:1510-1562; `c176_overflow`).
* Tables computed and never read: via2viaMinLen, via2viaMinLenNew and via2turnMinLen of `FlexDR::init` (src/dr/FlexDR.cpp:276-1048, 1074-1232). Code never reached: `initFromTA` (src/dr/FlexDR.cpp:117) and the functions for fix modes other than 9.
* Track assignment with one thread and with several gives different results: with one thread a panel sees the wires of the panels before it already moved, with more the panels of a batch all start from the places before the batch (src/ta/FlexTA.cpp:128-245; `c178_witness`).
* The whole program with one thread may write another file than with two (`c180_one_thread`), as a consequence of the former for track assignment; between all other numbers of threads there is no difference (`c180_same_file_partial`).
* A wire of track assignment of exactly one unit that crosses from one GCell to the next is skipped as if it were a place holder, so neither region gets a pin for it and the first iteration leaves the net open (`c181_short_wire`).
* Components that are covered, unplaced at a location, in a region of coordinates, with a foreign cell or with a property are written in a form that the DEF grammar refuses: parentheses are missing, the orientation is given twice, the type of a property follows its value (src/io/defw.cpp:170-257; `c183_cover`, `c183_property`).
* The END of all sections but nets, special nets and pins is written when as many statements were written as the header said: `REGIONS 0 ; END REGIONS` loses its END, and a header with too small a number gets one END per further statement (src/io/defw.cpp:260, 1623, 2403, …; `c184_empty`). Timing disables get the header TIMING DISABLES and never an END.
* Tracks that start at a coordinate of a million or more are written with six digits: a start of 1000001 becomes 1e+06, so that the routes do not lie on the written tracks (src/io/defw.cpp:2308-2327; `c185_shifted`). A track statement without layers is written with an empty LAYER, which is refused; properties of a row are written after its semicolon.
* Of a polygonal die area only the first two corners are written, in general a box without area (src/io/defw.cpp:1975-1980; `c186_polygon`).
* Nets lose XTALK and STYLE; a synthesized connection, a virtual pin (without the word VPIN) and a property that is not a real number make the written net unreadable (src/io/defw.cpp:327-345, 429-442, 661-682; `c187_net_partial`, `c187_lost`).
* Special nets lose the rectangles and virtual points inside their wires and the vias of the net without notice — a wire across a VIRTUAL point becomes metal —, and polygons and rectangles of the net are written without parentheses, which the grammar refuses (src/io/defw.cpp:1251-1401; `c188_lost`, `c188_virtual`).
* A pin with a polygon, a via or an antenna option, and a pin whose port has a rectangle, is written in a form that the grammar refuses: parentheses or `+` are missing (src/io/defw.cpp:2037-2257; `c189_port`). A pin that has a placement and a port without placement gets its placement moved to the port (`c189_moved`).
* The cut pattern of a generated via is written in single quotes, which are no quotes of DEF: the quotes become part of the pattern, one more pair each time (src/io/defw.cpp:2397-2398; `c191_plain`, `c191_grows`). Polygons of vias and blockages are written without parentheses and refused by the grammar (2359-2374, 2818-2824; `c191_via_partial`, `c192_blockage_partial`).
* Rectangles, polygons and points of fills and slots are written without parentheses, so a reference file with any metal fill gives a file that cannot be read (src/io/defw.cpp:2829-2898; `c194_fill_partial`, `c194_slot`, `c194_via`). Properties of nondefault rules and regions are written with a type name that the grammar refuses (1606-1621, 2417-2434; `c193_ndr_partial`).
* A NAMEMAPSTRING definition is written without its type, which the grammar refuses (src/io/defw.cpp:1796-1811; `c196_definition_partial`); the rectangles of a group's region are written without `+` and become names of members (2478-2485; `c197_boxes`); VERSION is always written as 5.8, so that NAMESCASESENSITIVE OFF of an old reference file makes the written file unreadable (1906-1931; `c198_off`).
* Via rules are stored without the layers that they are for, and never read again; a rule without GENERATE ends the program (src/io/io.cpp:4720-4723; `c200_not_generate`), one with the same metal twice is accepted with the metal taken for the cut (`c200_twice_accepted`).
* The units of DEF are never compared with those of LEF (src/io/io.cpp:1058-1067): with LEF at 2000 and DEF at 1000 units per micron, which DEF allows, every cell is twice as large as it should be (`c202_mixed`, `c202_placed_partial`). A LEF file without UNITS gives lengths of zero, where LEF has 100 units per micron (`c202_no_units`).
* The AREA of a cut spacing is multiplied by the units once (src/io/io.cpp:4018) and compared with an area in square units (src/ta/FlexTA_assign.cpp:484-485, src/dr/FlexDR_maze.cpp:1266-1268), so the rule takes part for nearly every cut (`c202_cut_area`).
* Minimum steps are cut off instead of rounded (src/io/io.cpp:3690, 3699); with `double` a whole number of units can become one less.
* Access points of a pin on the highest routing layer come from the tracks of the routing layer below (src/pa/FlexPA_prep.cpp:303-304), but instances of a cell are grouped by the tracks from the lowest pin layer upwards only (src/pa/FlexPA_init.cpp:97-98), so a cell whose pins are all on the highest layer can get access points that are off the tracks (`c205_top_layer`).
* A via tried at a pin of the block is entered as belonging to the pin (src/pa/FlexPA_prep.cpp:818) while the shapes of the pin belong to its net (src/gc/FlexGC_init.cpp:44-45; the wire case, lines 661-665, is right). Every via whose metal overlaps its own pin is therefore a short and refused, so pins of the block get no via access (`c206_block_pin_via`).
* The two supply nets made up by the reader (src/io/io.cpp:1111-1121) are never numbered and share the number -1, so a set compared by number would keep only one of them (`c207_made_up_nets`). At present they are only kept in maps compared by address.
* The table of forbidden overlap lengths (src/rp/FlexRP_prep.cpp:404-418) is never looked up, nor are the tables of minimum lengths between vias and turns that detailed routing prepares (src/dr/FlexDR.cpp:276-1232). The layer 10 and the via name of one process are built in and also apply, for running through a via, to every other process (`c208_through`).
* A pattern of tracks in the preferred direction with a step of 0 (`DO 1 STEP 0`) on a layer near the pins of a placed cell makes the program divide by zero right after reading (src/io/io_pin.cpp:101, 105; `c209_division_by_zero`). Instances at negative coordinates are counted as different although they are alike (`c209_negative_coordinates`).
* The loop at src/io/io_parser_helper.cpp:896-926 counts tracks per GCell into a variable that is never read. Its only effects are to divide by zero for a pattern of step 0 along any routing layer (line 910; `c210_steps_needed`) and to look up a layer that does not exist if their number is even.
