{"id": "C01", "title": "Orientation transforms are invertible", "statement": "Placing a point with any transform (offset + one of the eight LEF/DEF orientations) and then applying the transform's revert() returns the original point, and also the other way round.", "quantifier": "all integer offsets, all eight orientations, all integer points", "why_tests_cant": "infinitely many offsets and points; a swapped sign in one of sixteen branches is only visible for the right orientation and non-zero offsets", "anchors": ["src/db/infra/frPoint.cpp: frPoint::transform", "src/db/infra/frTransform.h: frTransform::revert"]}
{"id": "C02", "title": "Orientation transforms are rigid", "statement": "Transforming points preserves Manhattan and squared Euclidean distances; transforming a box yields exactly the box of the transformed points (a point is in the box iff its image is in the transformed box), so widths, lengths, areas and overlaps of placed shapes are those of the master.", "quantifier": "all boxes, points, offsets and all eight orientations", "why_tests_cant": "quantifies over all geometry; a test only samples a few cells", "anchors": ["src/db/infra/frPoint.cpp: frPoint::transform", "src/db/infra/frBox.cpp: frBox::transform"]}
{"id": "C03", "title": "Placed cell lands on its DEF location", "statement": "For an instance whose master occupies [0,sx]x[0,sy], the updated transform maps the master outline to a box whose lower-left corner is exactly the DEF placement point and whose size is (sx,sy), or (sy,sx) for the four 90-degree orientations.", "quantifier": "all placement points, all master sizes, all eight orientations", "why_tests_cant": "eight branches with separate offset arithmetic, quantified over all sizes", "anchors": ["src/db/infra/frTransform.h: frTransform::updateXform", "src/db/obj/frInst.cpp: frInst::getUpdatedXform"]}
{"id": "C04", "title": "Box predicates agree with point sets", "statement": "contains/overlaps (with and without edges) answer exactly the question about the closed/open point sets; set() normalises corners; bloat by d contains exactly the points within Chebyshev distance d of the box.", "quantifier": "all boxes, points and bloat distances", "why_tests_cant": "boundary cases (touching edges, degenerate boxes, negative bloat) over unbounded coordinates", "anchors": ["src/db/infra/frBox.h: frBox::contains, frBox::overlaps, frBox::bloat, frBox::set"]}
{"id": "C05", "title": "Container keys are strictly ordered", "statement": "The comparison operators used as keys of ordered containers (points, boxes, maze indices) are strict total orders consistent with equality, so no two different keys are ever merged and no key is lost.", "quantifier": "all triples of keys", "why_tests_cant": "transitivity and trichotomy quantify over all triples of values", "anchors": ["src/db/infra/frPoint.h: operator<", "src/db/infra/frBox.h: operator<", "src/dr/FlexMazeTypes.h: FlexMazeIdx::operator<"]}
{"id": "C06", "title": "Wavefront priority is a strict weak order with the documented preference", "statement": "The search frontier's priority is a strict weak order; the frontier entry returned by top() has minimal total cost among all entries, and ties are broken by distance to the pin centre, then higher layer, then larger path cost.", "quantifier": "all frontier contents", "why_tests_cant": "a violation shows up only as undefined behaviour of the heap on particular multisets", "anchors": ["src/dr/FlexWavefront.h: FlexWavefrontGrid::operator<, FlexWavefront::top"]}
{"id": "C07", "title": "Distinct maze nodes never share storage", "statement": "For a grid of any dimensions, two different in-range maze nodes are stored at different positions of the node array and every in-range node's position is inside the array, on horizontal and vertical layers alike.", "quantifier": "all grid dimensions, all layer-direction assignments, all pairs of nodes", "why_tests_cant": "unbounded dimensions; mixed row/column-major layouts per layer", "anchors": ["src/dr/FlexGridGraph.h: FlexGridGraph::getIdx"]}
{"id": "C08", "title": "Edge and cost attributes are independent", "statement": "Writing one attribute of one maze edge (edge existence, blocked, grid cost, DRC, marker or shape cost counters, special via) leaves every other attribute of every edge of the grid unchanged.", "quantifier": "all 64-bit node words, all attributes, all edges, all sequences of updates", "why_tests_cant": "2^64 node states times all attribute pairs", "anchors": ["src/dr/FlexGridGraph.h: setBit, resetBit, setBits, addToBits, subToBits, addEdge, setBlocked, addDRCCost*"]}
{"id": "C09", "title": "Maze edges are seen identically from both ends", "statement": "After any sequence of addEdge/removeEdge calls, hasEdge from a node toward a neighbour equals hasEdge from the neighbour back; an added edge is present, a removed edge absent, and queries or updates that leave the grid never succeed and never write.", "quantifier": "all grids, all operation histories, all six directions", "why_tests_cant": "histories are unbounded; the direction-correction code has six asymmetric branches", "anchors": ["src/dr/FlexGridGraph.h: correct, reverse, isValid, hasEdge, addEdge, removeEdge"]}
{"id": "C10", "title": "Cost counters count", "statement": "A DRC/shape/marker cost counter reads as present iff it was added more times than it was removed; adding a cost never makes it disappear.", "quantifier": "all interleavings of add and subtract operations on a counter", "why_tests_cant": "needs hundreds of additions on the same edge; depends on the whole history", "anchors": ["src/dr/FlexGridGraph.h: addToBits, subToBits, addDRCCostPlanar, subDRCCostPlanar, addMarkerCost*, hasDRCCost"]}
{"id": "C11", "title": "Search labels read back", "statement": "Source, destination, guide and predecessor-direction labels read back exactly what was last written for that node, a rectangle of guide labels is set on exactly the nodes of the rectangle, and reset clears all of them.", "quantifier": "all grids, rectangles and operation histories", "why_tests_cant": "range fill is per row/column with layer-dependent layout; unbounded sizes", "anchors": ["src/dr/FlexGridGraph.h: setSrc, setDst, setGuide, resetGuide, setPrevAstarNodeDir, getPrevAstarNodeDir, resetStatus, resetPrevNodeDir"]}
{"id": "C12", "title": "Track enumeration is exact", "statement": "The routing tracks generated for a routing region are exactly the positions start + k*step (0 <= k < number of tracks) that lie inside the half-open coordinate window of the region; none is missing and none is outside.", "quantifier": "all track patterns with positive step, all windows", "why_tests_cant": "depends on truncating division of possibly negative differences; off-by-one only at particular alignments", "anchors": ["src/dr/FlexGridGraph.cpp: FlexGridGraph::initTracks", "src/ta/FlexTA_init.cpp: FlexTAWorker::initTracks"]}
{"id": "C13", "title": "Coordinate to maze index lookup is exact", "statement": "On a strictly increasing coordinate list, the maze index of an existing coordinate is its position, hasMazeIdx answers membership, and the index box of a rectangle contains exactly the tracks lying inside the closed rectangle (empty, i.e. begin>end, when there is none).", "quantifier": "all sorted coordinate lists, all query coordinates and boxes", "why_tests_cant": "binary-search boundary behaviour over unbounded lists", "anchors": ["src/dr/FlexGridGraph.h: getMazeXIdx, getMazeYIdx, hasMazeXIdx, getIdxBox", "src/ta/FlexTA.h: FlexTAWorker::getTrackIdx"]}
{"id": "C14", "title": "A found maze path is a real path", "statement": "When the maze search reports success, the returned path starts at a destination node, ends at a source node, and consecutive turning points are joined by straight runs of existing maze edges through in-grid nodes; the trace-back never runs into an unlabelled node.", "quantifier": "all grids, edge sets, costs, heap tie-breaking, source/destination sets", "why_tests_cant": "quantifies over all grids and all orders in which the priority queue may release entries; the two-step delayed commit of predecessor labels makes the invariant non-local", "anchors": ["src/dr/FlexGridGraph_maze.cpp: search, expand, expandWavefront, isExpandable, getTailIdx, traceBackPath"]}
{"id": "C15", "title": "The maze search terminates", "statement": "The maze search loop terminates on every grid, for all costs.", "quantifier": "all finite grids, edge sets, costs and tie-breaking orders", "why_tests_cant": "non-termination cannot be observed by a finite test, and nodes may be popped several times before being committed", "anchors": ["src/dr/FlexGridGraph_maze.cpp: search"]}
{"id": "C16", "title": "The maze search is complete", "statement": "If the maze search reports failure then no destination node is reachable from the source set over existing maze edges.", "quantifier": "all grids, edge sets, costs and tie-breaking orders", "why_tests_cant": "the frontier drops entries whose delayed commit conflicts; whether a reachable target can be missed depends on global structure", "anchors": ["src/dr/FlexGridGraph_maze.cpp: search, expand, isExpandable"]}
{"id": "C17", "title": "Found paths never revisit a node", "statement": "The path returned by the maze search is simple: it passes through no maze node twice, and it touches the source set only at its end and the destination set only at its start.", "quantifier": "all grids, edge sets, costs and tie-breaking orders", "why_tests_cant": "a loop needs a particular pop order to appear", "anchors": ["src/dr/FlexGridGraph_maze.cpp: search, isExpandable, traceBackPath"]}
{"id": "C18", "title": "A routed net is electrically connected", "statement": "When routing a net reports success, the wires and vias emitted for the net connect all of its pins: from any pin one can walk through emitted shapes sharing maze nodes to every other pin.", "quantifier": "all nets (any number of pins, any access points, shared access points), all grids, all costs", "why_tests_cant": "multi-pin growth, access-point sharing and the first-connection special case interact; the claim ranges over all grids and nets", "anchors": ["src/dr/FlexDR_maze.cpp: routeNet, routeNet_prep, routeNet_setSrc, routeNet_getNextDst, routeNet_postAstarUpdate, routeNet_postAstarWritePath"]}
{"id": "C19", "title": "Emitted shapes are well formed and stay on the maze", "statement": "Every wire emitted for a found path is axis-parallel with its begin point strictly before its end point, every via joins two adjacent routing layers, and every maze edge covered by an emitted shape exists in the maze.", "quantifier": "all grids and all found paths", "why_tests_cant": "ranges over all paths", "anchors": ["src/dr/FlexDR_maze.cpp: routeNet_postAstarWritePath"]}
{"id": "C20", "title": "Net routing makes progress and fails only on unreachable pins", "statement": "Each successful search connects at least one more pin, so routing a net takes at most (#pins - 1) searches; the routine reports failure only if some still unconnected pin's access points cannot be reached in the maze from the pins connected so far, and never dereferences a missing next pin as long as every pin has an access point.", "quantifier": "all nets and grids", "why_tests_cant": "termination and the failure condition quantify over all nets", "anchors": ["src/dr/FlexDR_maze.cpp: routeNet, routeNet_getNextDst, routeNet_postAstarUpdate"]}
{"id": "C21", "title": "GCell lookup is total and consistent", "statement": "The GCell index of any point is within the GCell grid; for a point inside the die the returned GCell's box contains the point, and the GCell centre lies in the GCell's box.", "quantifier": "all GCell grids, die boxes and points", "why_tests_cant": "truncating division and clamping at the first and last GCell, over unbounded coordinates", "anchors": ["src/db/obj/frBlock.h: frBlock::getGCellIdx, getGCellBox, getGCellCenter"]}
{"id": "C22", "title": "GCell boxes tile the die", "statement": "The boxes of the GCells cover every point of the die, and two different GCells share no interior point.", "quantifier": "all GCell grids with positive spacing and matching die box", "why_tests_cant": "quantifies over all points and all pairs of GCells", "anchors": ["src/db/obj/frBlock.h: frBlock::getGCellBox"]}
{"id": "C23", "title": "Every GCell is routed by exactly one worker per iteration", "statement": "In each search-and-repair iteration, for any clip size and non-positive or positive offset, every GCell with index at least the offset belongs to exactly one worker's route box, and no two workers' route boxes share interior points.", "quantifier": "all grid sizes, clip sizes, offsets", "why_tests_cant": "loops with truncated last clips and negative offsets over unbounded grids", "anchors": ["src/dr/FlexDR.cpp: FlexDR::searchRepair, FlexDR::initDR", "src/ta/FlexTA.cpp: FlexTA::initTA_helper"]}
{"id": "C24", "title": "Concurrent workers are separated", "statement": "Workers that run in parallel in one batch have route boxes separated by at least one full clip in x or y; hence if a clip is wider than the working halo on both sides, their extended boxes do not overlap and they never read or write the same design region concurrently. Every worker is in exactly one batch and a batch never exceeds the batch size.", "quantifier": "all grid sizes, clip sizes, offsets, batch sizes", "why_tests_cant": "schedules: a data race needs a particular interleaving; the property must hold for all of them", "anchors": ["src/dr/FlexDR.cpp: FlexDR::searchRepair, getBatchInfo"]}
{"id": "C25", "title": "Write-back keeps every wire outside the worker's region", "statement": "When a worker replaces routing inside its region, a pre-existing wire of a modified net is cut so that exactly its part outside the region survives: no centre-line point strictly outside is lost, none strictly inside survives, and each cut end lies on the region boundary and is recorded as a boundary point.", "quantifier": "all wires (horizontal or vertical), all regions, initial and repair passes", "why_tests_cant": "case analysis on the relative position of wire and region over unbounded coordinates", "anchors": ["src/dr/FlexDR_end.cpp: endRemoveNets_pathSeg, endRemoveNets_via, endRemoveNets_patchWire"]}
{"id": "C26", "title": "Boundary merging preserves the wire", "statement": "Merging two collinear wires at a worker boundary point yields one wire covering exactly the union of the two, and when one wire ends where the other begins the outer end styles are preserved; wires are merged only when no third same-net wire or patch meets at the point, and then they are merged unless the point is on a pin. No centre-line point of any net is lost or added by merging.", "quantifier": "all sets of same-net shapes at a boundary point", "why_tests_cant": "depends on combinations of shapes meeting at a point", "anchors": ["src/dr/FlexDR_end.cpp: endAddNets_merge"]}
{"id": "C27", "title": "Write-back never makes a repair iteration worse", "statement": "In repair mode with design-rule checking enabled, a worker's result is written back only if its number of violations does not exceed the number it started from (in the first two iterations, zero counts as one); from iteration 2 on a worker with nothing to repair leaves the design unchanged, and workers run one after the other never increase the total number of stored violations.", "quantifier": "all worker results and configurations", "why_tests_cant": "decision over all combinations of mode, iteration and counts", "anchors": ["src/dr/FlexDR_end.cpp: FlexDRWorker::end"]}
{"id": "C28", "title": "Violation store after write-back", "statement": "After write-back the stored violations are exactly: the old ones not touching the worker's check box, plus the worker's best violations that touch it.", "quantifier": "all marker sets and boxes", "why_tests_cant": "set equality over all marker configurations", "anchors": ["src/dr/FlexDR_end.cpp: endRemoveMarkers, endAddMarkers"]}
{"id": "C29", "title": "Violations are reported once", "statement": "Adding a violation whose box, layer, rule and unordered pair of objects equals one already stored is rejected, any other is stored; so the violation list never contains duplicates regardless of the order of the two objects.", "quantifier": "all sequences of reported violations", "why_tests_cant": "history property over unbounded sequences", "anchors": ["src/gc/FlexGC.cpp: FlexGCWorker::addMarker"]}
{"id": "C30", "title": "Overlapping-wire merging preserves coverage", "statement": "Merging same-track wires of a net replaces overlapping ones so that the union of covered centre-line intervals is unchanged and the remaining wires overlap nowhere (they may abut).", "quantifier": "all multisets of intervals on a track", "why_tests_cant": "interval sweeping over arbitrary multisets", "anchors": ["src/dr/FlexDR_conn.cpp: checkConnectivity_merge_perform_helper, checkConnectivity_merge_commit"]}
{"id": "C31", "title": "T-junction detection is exact on merged wires", "statement": "On wires of a track that overlap nowhere, the split lookup reports a wire for a point iff the point lies strictly inside that wire.", "quantifier": "all sets of non-overlapping wires, all points", "why_tests_cant": "ordered-map lower-bound lookup; false in general without the non-overlap precondition", "anchors": ["src/dr/FlexDR_conn.cpp: checkConnectivity_nodeMap_routeObjSplit_helper"]}
{"id": "C32", "title": "Connectivity check is sound and complete", "statement": "For a net with at least two pins the connectivity check succeeds iff all its pins are in one connected component of its shapes.", "quantifier": "all shape/pin incidence structures", "why_tests_cant": "graph property over all graphs", "anchors": ["src/dr/FlexDR_conn.cpp: checkConnectivity_astar"]}
{"id": "C33", "title": "Loop removal keeps the net connected", "statement": "The shapes kept by the connectivity pass (those marked as used) connect all pins, and dropping any shape not kept never disconnects two pins.", "quantifier": "all shape/pin incidence structures on which the check succeeds", "why_tests_cant": "graph property over all graphs", "anchors": ["src/dr/FlexDR_conn.cpp: checkConnectivity_astar, checkConnectivity_final"]}
{"id": "C34", "title": "Track assignment picks a best available track", "statement": "For every scan order, the track chosen for a wire lies in the available range and its cost (total cost in the first pass, violation cost in later passes) is minimal among the tracks inspected; the scan inspects every available track unless a violation-free one has been found.", "quantifier": "all ranges, preferred positions and cost functions", "why_tests_cant": "six scan orders over arbitrary ranges and costs", "anchors": ["src/ta/FlexTA_assign.cpp: assignIroute_bestTrack, assignIroute_bestTrack_helper"]}
{"id": "C35", "title": "Track assignment records the cost of the chosen track", "statement": "The violation cost recorded for an assigned wire is the violation cost of the track it was assigned to.", "quantifier": "all ranges, preferred positions and cost functions", "why_tests_cant": "visible only for particular cost profiles", "anchors": ["src/ta/FlexTA_assign.cpp: assignIroute_bestTrack"]}
{"id": "C36", "title": "Track assignment terminates", "statement": "The (re)assignment loop of a track-assignment panel terminates; no wire is assigned more than the allowed number of retries.", "quantifier": "all panels and cost behaviours", "why_tests_cant": "termination over all cost behaviours", "anchors": ["src/ta/FlexTA_assign.cpp: FlexTAWorker::assign"]}
{"id": "C37", "title": "Spacing-table lookup selects the right row", "statement": "For a query value above the first key, the lookup returns the entry of the largest key that is strictly smaller than the query (front row otherwise rejected), index always inside the table; 2-D lookups are monotone in both arguments whenever the table is.", "quantifier": "all tables and query values", "why_tests_cant": "boundary values and iterator arithmetic over arbitrary tables", "anchors": ["src/db/tech/frLookupTbl.h: fr1DLookupTbl::getRowIdx, fr2DLookupTbl::getRowIdx, find"]}
{"id": "C38", "title": "Two-width spacing rows are ordered consistently", "statement": "The row order used for two-width spacing tables is a strict weak order.", "quantifier": "all triples of rows", "why_tests_cant": "transitivity over all triples", "anchors": ["src/db/tech/frConstraint.h: frSpacingTableTwRowType::operator<"]}
{"id": "C39", "title": "Forbidden-length tables are addressed without collision", "statement": "Different (previous via, current via, direction) combinations address different in-range entries of the forbidden-length tables, and a length is reported forbidden iff it lies in one of the stored closed intervals.", "quantifier": "all combinations and all interval tables and lengths", "why_tests_cant": "interval membership over arbitrary tables", "anchors": ["src/db/tech/frTechObject.h: getTableEntryIdx, isIncluded, isVia2ViaForbiddenLen"]}
{"id": "C40", "title": "Spacing violation decision", "statement": "Two fixed-width shapes on a layer are reported as a spacing violation exactly when they do not touch and the Euclidean distance between them is smaller than the required spacing (given exposed facing edges and at least one routed shape).", "quantifier": "all pairs of rectangles and required spacings", "why_tests_cant": "32-bit arithmetic on squared distances; all relative positions", "anchors": ["src/gc/FlexGC_main.cpp: checkMetalSpacing_prl, checkMetalSpacing_main"]}
{"id": "C41", "title": "Spacing search window misses nothing", "statement": "Every rectangle closer than the largest tabulated spacing to the checked rectangle is visited by the window query.", "quantifier": "all pairs of rectangles, all spacing tables", "why_tests_cant": "quantifies over all geometry", "anchors": ["src/gc/FlexGC_main.cpp: checkMetalSpacing_getMaxSpcVal, myBloat, checkMetalSpacing_main"]}
{"id": "C42", "title": "Guide merging preserves coverage", "statement": "Merging overlapping or adjacent route guides of a layer/row keeps the set of covered GCells unchanged and leaves pairwise separated guides.", "quantifier": "all sets of guides", "why_tests_cant": "interval sweeping over arbitrary sets", "anchors": ["src/io/io_guide.cpp: genGuides_merge, genGuides_split"]}
{"id": "C43", "title": "Guide connection finds a tree over all pins", "statement": "The guide search succeeds only if all pins of the net are connected through guides, and the guides it keeps connect all pins.", "quantifier": "all guide/pin incidence structures", "why_tests_cant": "graph property over all graphs", "anchors": ["src/io/io_guide.cpp: genGuides_astar"]}
{"id": "C44", "title": "Ripping up a net restores the cost map", "statement": "Adding the cost of a shape and later subtracting it leaves every cost counter as it was, in any interleaving with other shapes' additions and subtractions, as long as no counter saturates.", "quantifier": "all shapes, all grids, all interleavings", "why_tests_cant": "interleavings of add/sub over all nets", "anchors": ["src/dr/FlexDR_maze.cpp: addPathCost, subPathCost, modPathCost", "src/dr/FlexGridGraph.h: addDRCCostPlanar, subDRCCostPlanar"]}
{"id": "C45", "title": "Reroute queue terminates", "statement": "The rip-up-and-reroute loop of a worker terminates: every net is rerouted at most the configured number of times and stale queue entries are skipped.", "quantifier": "all nets, all checker results, all histories", "why_tests_cant": "termination under an arbitrary checker", "anchors": ["src/dr/FlexDR_maze.cpp: route_queue_main, route_queue_update_queue, route_queue_init_queue"]}
{"id": "C46", "title": "Track-assignment panels partition the rows", "statement": "The panels processed by track assignment share no interior point, and every GCell whose row (column) index is at least the offset lies inside one of them.", "quantifier": "all GCell grids, panel sizes and offsets greater than minus the panel size", "why_tests_cant": "quantifies over all grids, sizes and offsets", "anchors": ["src/ta/FlexTA.cpp: FlexTA::initTA_helper"]}
{"id": "C47", "title": "Clean-up of a routed net keeps its pins connected and adds no metal", "statement": "After the connectivity pass has dropped unused shapes, split wires at pins and shrunk wires, the remaining shapes still connect all pins of the net that were touched by its routing; every remaining wire lies on a wire of the merged net, every remaining via existed before, and of the patches exactly those at an end of a remaining shape stay.", "quantifier": "all sets of axis-parallel wires, vias, patches and pins, and all queue orders", "why_tests_cant": "all nets and all queue orders; the splits and shrinks interact", "anchors": ["src/dr/FlexDR_conn.cpp: checkConnectivity_final, checkConnectivity"]}
{"id": "C48", "title": "Touching guides are connected", "statement": "Whenever two guides of a net lie in neighbouring tracks of a layer and overlap along the track, the merged guides contain a path between them that only uses moves along preferred directions and changes between routing layers.", "quantifier": "all sets of guides and all technologies with alternating directions", "why_tests_cant": "all geometric configurations of guides", "anchors": ["src/io/io_guide.cpp: genGuides_merge"]}
{"id": "C49", "title": "Guides meet only at their ends after splitting", "statement": "After splitting, each guide lies in the merged guides and meets guides of neighbouring layers and pins only at its two end GCells, and every meeting place of merged guides and pins is the end of some split guide.", "quantifier": "all merged guides, all pins", "why_tests_cant": "all arrangements of guides and pins", "anchors": ["src/io/io_guide.cpp: genGuides_split"]}
{"id": "C50", "title": "Nets are accepted exactly when their guides connect them", "statement": "If guide processing accepts a net with several pins, the guides kept connect all its pins; if it stops with 'guide not connected', the pins are not all connected through the guides, even when passing through pins is allowed.", "quantifier": "all nets, guides, pins, settings and queue orders", "why_tests_cant": "three attempts with different graphs, all inputs", "anchors": ["src/io/io_guide.cpp: genGuides, genGuides_astar"]}
{"id": "C51", "title": "Reported violations are retried", "statement": "Whenever a check during rip-up and reroute reports a violation, every net chosen for it (the movable aggressors, or else the movable sources, below the reroute limit) has been rerouted at least once more when the loop ends.", "quantifier": "all checkers, all markers, all histories", "why_tests_cant": "liveness over arbitrary schedules of the queue", "anchors": ["src/dr/FlexDR_init.cpp: route_queue_update_from_marker, route_queue_update_queue", "src/dr/FlexDR_maze.cpp: route_queue_main"]}
{"id": "C52", "title": "Every wire offered to track assignment is handled", "statement": "In the first pass every wire of a panel is assigned exactly once. In later passes every wire that starts with violations is assigned at least once, unless the reassignment of another wire left it without violations.", "quantifier": "all panels, all orders in which wires are taken, all cost behaviours", "why_tests_cant": "liveness over arbitrary orders; a bounded buffer of recent wires suppresses reassignments", "anchors": ["src/ta/FlexTA_assign.cpp: FlexTAWorker::assign, assignIroute_updateOthers", "src/ta/FlexTA_init.cpp: sortIroutes"]}
{"id": "C53", "title": "Forbidden lengths are the inside of the merged rule ranges", "statement": "A length is reported as forbidden exactly when it, the length one unit below and the length one unit above all lie in ranges excluded by rules; in particular lengths strictly inside one rule's range are always reported and lengths in no range never are.", "quantifier": "all sets of rule ranges, all lengths", "why_tests_cant": "all combinations of overlapping, touching and empty ranges", "anchors": ["src/rp/FlexRP_prep.cpp: prep_viaForbiddenThrough, prep_via2viaForbiddenLen, prep_viaForbiddenTurnLen, prep_lineForbiddenLen", "src/db/tech/frTechObject.h: isIncluded"]}
{"id": "C54", "title": "Via-to-via lengths that violate spacing are forbidden", "statement": "If two vias of a net, placed at a distance along one direction, leave a gap between their metal shapes (or their cuts) that is positive and below the spacing the technology requires, the distance is reported as forbidden for that pair of vias and direction.", "quantifier": "all technologies, via shapes, directions and distances", "why_tests_cant": "all rule values and via shapes; four rule kinds contribute ranges that are merged", "anchors": ["src/rp/FlexRP_prep.cpp: prep_via2viaForbiddenLen_minSpc, prep_via2viaForbiddenLen_cutSpc, prep_via2viaForbiddenLen_minimumCut", "src/db/tech/frTechObject.h: isVia2ViaForbiddenLen"]}
{"id": "C55", "title": "Turn and parallel-wire lengths that violate spacing are forbidden", "statement": "A turn at a distance from a wide via at which the wire after the turn is closer to the via's shape than the required spacing is reported as forbidden; a distance between parallel default-width wires of one net is reported as forbidden exactly when the gap is positive and below the required spacing.", "quantifier": "all technologies, via shapes, directions and distances", "why_tests_cant": "all rule values and via shapes", "anchors": ["src/rp/FlexRP_prep.cpp: prep_viaForbiddenTurnLen_minSpc, prep_lineForbiddenLen_minSpc", "src/db/tech/frTechObject.h: isViaForbiddenTurnLen, isLine2LineForbiddenLen"]}
{"id": "C56", "title": "Loading a region and writing it back unchanged is the identity", "statement": "Loading a worker region and removing it from the design agree: for wires of positive length the pieces left outside are the same with the same styles, the loaded pieces are exactly the part of each wire in the closed region, and both together cover exactly the wire; so a worker that writes its loaded objects back unchanged leaves every centre line of every net as it was.", "quantifier": "all designs, regions, sets of modified nets, boundary points and query orders", "why_tests_cant": "case analysis on unbounded coordinates and all designs; loading and removal are separate code", "anchors": ["src/dr/FlexDR_init.cpp: initNetObjs_pathSeg, initNets_initDR, initNets_searchRepair", "src/dr/FlexDR_end.cpp: endRemoveNets_pathSeg, endAddNets"]}
{"id": "C57", "title": "Checking a metal layer finds every violation once", "statement": "The metal spacing check of a layer stores exactly the violations between pairs of its rectangles: every spacing violation, short and weak joint, each once, independently of which rectangle of a pair is looked at first and of the order in which spatial queries return; checking only one net stores exactly the violations that net takes part in.", "quantifier": "all sets of shapes, all spacing tables with grown entries up to 32767 units, all orders of query results", "why_tests_cant": "quantifies over all geometry and all orders; needs completeness of the search window", "anchors": ["src/gc/FlexGC_main.cpp: checkMetalSpacing, checkMetalSpacing_main", "src/gc/FlexGC.cpp: addMarker"]}
{"id": "C58", "title": "Short and joint decisions", "statement": "Two touching shapes of different nets are reported as a short exactly when not both are fixed, they are not a blockage over its own pin, and routed metal lies in their common part; two touching shapes of one net are reported exactly when both are wide enough, their common part has a diagonal below the minimum width and no third wide enough shape of the net joins them there.", "quantifier": "all sets of shapes on a layer", "why_tests_cant": "all relative positions of two and three shapes", "anchors": ["src/gc/FlexGC_main.cpp: checkMetalSpacing_short, checkMetalSpacing_short_skipOBSPin"]}
{"id": "C59", "title": "Minimum-step check of an outline", "statement": "For every polygon outline the minimum-step check ends, and for a rule without a corner type it reports exactly the groups of short edges between two different long edges that have more edges than the rule allows and belong, edge or neighbour, to routed metal, each with the bounding box of its corners; rules with a corner type report nothing, and an outline with a single long edge is never reported.", "quantifier": "all outlines of any number of edges, all rules", "why_tests_cant": "a walk around a ring of unbounded length with several exits", "anchors": ["src/gc/FlexGC_main.cpp: checkMetalShape_minStep, checkMetalShape_minStep_helper"]}
{"id": "C60", "title": "Minimum width and grid checks", "statement": "The minimum-width check reports something exactly when some part of the metal that is not fixed lies in a place narrower than the minimum width along its row or its column, and what it reports is exactly the narrow places; the grid check reports exactly the rectangles with routed metal that have a coordinate off the manufacturing grid, negative coordinates included, and divides by zero if there is no grid.", "quantifier": "all metal shapes, all widths and grids", "why_tests_cant": "all shapes; signed remainders", "anchors": ["src/gc/FlexGC_main.cpp: checkMetalShape_minWidth, checkMetalShape_main, checkMetalShape_offGrid"]}
{"id": "C61", "title": "End-of-line spacing", "statement": "For every edge of the metal outline, in each of the four directions, the end-of-line check reports only edges shorter than the rule's width between two convex corners that have metal opposite within the rule's spacing and side extension, with metal alongside if the rule asks for it, an empty gap, and routed metal involved; and it reports every such pair in which the end itself, the metal alongside or the metal opposite is routed, in any query order. (Whether a gap between two fixed shapes is reported too can depend on the query order.)", "quantifier": "all layouts, end-of-line rules, edges and orders of query results", "why_tests_cant": "four direction-specific window computations over unbounded coordinates, and all query orders", "anchors": ["src/gc/FlexGC_main.cpp: checkMetalEndOfLine_main, checkMetalEndOfLine_eol_isEolEdge, checkMetalEndOfLine_eol_hasParallelEdge_oneDir, checkMetalEndOfLine_eol_hasEol, checkMetalEndOfLine_eol_hasEol_helper", "src/db/tech/frConstraint.h: frSpacingEndOfLineConstraint"]}
{"id": "C62", "title": "Cut spacing on one layer", "statement": "For every cut layer, every rule set and every query order, the cut check reports exactly: a short for every two touching cuts and a spacing violation for every two cuts that are closer (edge to edge or centre to centre) than the rule requires, provided the rule covers the pair and the first cut has the number of neighbours the rule asks for; exceptions (both fixed, same power net, no parallel overlap, one covering metal shape) are respected. Without neighbour conditions, checking one net finds everything that net takes part in; with them it may not. The AREA of a rule has no influence, and rules for one net are applied to different nets as well.", "quantifier": "all sets of cuts, metal shapes, rules, target nets and orders of query results", "why_tests_cant": "all geometry and all orders; needs completeness of the search window and counting of neighbours", "anchors": ["src/gc/FlexGC_main.cpp: checkCutSpacing, checkCutSpacing_main, checkCutSpacing_main_hasAdjCuts, checkCutSpacing_spc, checkCutSpacing_short", "src/db/tech/frConstraint.h: frCutSpacingConstraint"]}
{"id": "C63", "title": "Cut spacing between layers", "statement": "For every rule between two cut layers the check reports exactly the cuts of the two layers that are too close, measured between centres if they overlap, with the same-net version of the rule for cuts of one net and stacked vias allowed where the rule says so, provided the same-net version does not ask for a larger distance than the rule; if it does, violations are missed.", "quantifier": "all sets of cuts on both layers, rules and orders of query results", "why_tests_cant": "all geometry and orders; the window is computed from one rule and used for another", "anchors": ["src/gc/FlexGC_main.cpp: checkCutSpacing_main, checkCutSpacing_spc_diff_layer, checkCutSpacing_getMaxSpcVal"]}
{"id": "C64", "title": "Track coordinates for pin access", "statement": "On every layer the coordinates considered for access points are exactly the coordinates of the tracks in the layer's preferred direction, and the midpoints, rounded to the manufacturing grid, of neighbouring tracks where they lie strictly between them, each marked with its kind, provided the tracks are on the grid; off-grid tracks can lose their kind.", "quantifier": "all sets of track patterns, all grids", "why_tests_cant": "arbitrary overlapping track patterns; a map that is overwritten while it is extended", "anchors": ["src/pa/FlexPA_init.cpp: initTrackCoords"]}
{"id": "C65", "title": "Shared access points of cell instances", "statement": "Two instances of a cell share their access points exactly if they have the same orientation and the same offsets to all tracks, whatever the iteration order; then, for non-negative origins, a point moved from one to the other lies on a line of tracks exactly if it did before. With negative origins, or where tracks end inside one of the instances, this fails.", "quantifier": "all sets of instances, cells, track patterns and map iteration orders", "why_tests_cant": "equivalence classes over any number of instances; modulo arithmetic on unsigned values", "anchors": ["src/pa/FlexPA_init.cpp: initUniqueInstance_main, initPinAccess, getPrefTrackPatterns, hasTrackPattern", "src/pa/FlexPA_prep.cpp: revertAccessPoints"]}
{"id": "C66", "title": "Generation of access points", "statement": "For every pin and every pair of position types, the access points generated are exactly one for each place (point and layer) that was not seen before and at which the rules allow one: inside a rectangle of the pin that is at least as wide as the minimum width, at the kind of coordinate asked for in both directions (track, midway, centre, via flush with the side), with the access directions that the layer allows.", "quantifier": "all pins (any number of rectangles on any layers), technologies and track patterns", "why_tests_cant": "soundness, completeness and absence of duplicates over arbitrary shapes", "anchors": ["src/pa/FlexPA_prep.cpp: prepPoint_pin_genPoints, prepPoint_pin_genPoints_layerShapes, prepPoint_pin_genPoints_rect, prepPoint_pin_genPoints_rect_genGrid, prepPoint_pin_genPoints_rect_genCenter, prepPoint_pin_genPoints_rect_genEnc, prepPoint_pin_genPoints_rect_ap, prepPoint_pin_genPoints_rect_ap_helper"]}
{"id": "C67", "title": "Checking and selection of access points", "statement": "An access point stored for a pin offers exactly the wire directions that the geometry checker accepts and that leave the pin, and exactly the usable vias, the best first; the points are tried in rounds, in a fixed order of position types, no place twice; a point is stored exactly if it offers an access (a via, on the via layer of a standard cell); and the rounds end exactly when enough points are stored or all types have been tried. Vias that must stay in the pin are only compared with the bounding box of their overlap with it and can stick out of a non-rectangular pin.", "quantifier": "all pins, technologies and behaviours of the geometry checker", "why_tests_cant": "an arbitrary checker and arbitrary pin shapes; a twelve-round search with a shared set of places", "anchors": ["src/pa/FlexPA_prep.cpp: prepPoint_pin, prepPoint_pin_helper, prepPoint_pin_checkPoint, prepPoint_pin_checkPoint_planar, prepPoint_pin_checkPoint_planar_ep, prepPoint_pin_checkPoint_via"]}
{"id": "C68", "title": "Choice of patterns along a row of cells", "statement": "The cells, sorted, are cut into rows of abutting cells, each cell in exactly one row. For each row in which every cell has a pattern, one pattern is chosen for every cell and the choice has the least cost, so that it is free of conflicts between neighbours whenever a conflict-free choice cheaper than one conflict exists. A cell without patterns leaves its whole row unassigned.", "quantifier": "all rows (any number of cells, up to five patterns each), costs and behaviours of the geometry checker", "why_tests_cant": "optimality over exponentially many choices", "anchors": ["src/pa/FlexPA_prep.cpp: prepPattern, genInstPattern, genInstPattern_init, genInstPattern_perform, genInstPattern_commit, getEdgeCost"]}
{"id": "C69", "title": "Patterns of a cell", "statement": "Every pattern stored for a cell contains exactly one of its own access points for every pin that has one, the checker has accepted its vias all together, the patterns are distinct and at most five. If every pin has an access point then every pin of an instance is given one of its own; otherwise pins are given those of other pins. Of a cell with one pin only the first access point is ever tried.", "quantifier": "all cells (any number of pins and access points), costs and behaviours of the geometry checker", "why_tests_cant": "an iterated search with caches and penalties, for arbitrary checkers", "anchors": ["src/pa/FlexPA_prep.cpp: prepPattern_inst, genPatterns, genPatterns_init, genPatterns_reset, genPatterns_gc, genPatterns_perform, getEdgeCost, genPatterns_commit, genInstPattern_commit"]}
{"id": "C70", "title": "Subnets of a region", "statement": "When a region is loaded for rerouting, two objects or pins of a net are put into the same subnet exactly if they are joined inside the region by a chain of wires and vias that meet where a wire ends or a via lands; every object and every pin reached is in exactly one subnet; what a worker may remove lies inside the region, and everything else of a subnet is outside or crosses the border. Patches laid on the middle of a wire, and wires that overlap others along a line, are exceptions.", "quantifier": "all nets (any number of wires, vias, patches and pins), regions and orders of the search", "why_tests_cant": "equivalence classes of an unbounded connection graph, for every order of exploration", "anchors": ["src/dr/FlexDR_init.cpp: initNetObjs, initNets_searchRepair, initNets_searchRepair_pin2epMap, initNets_searchRepair_nodeMap, initNets_searchRepair_connComp"]}
{"id": "C71", "title": "Rerouting a region keeps nets connected", "statement": "If a worker's new routes connect, for every subnet of a net, the wires that cross the border and the pins with each other, then any two pins of the net that were connected in the design are still connected after the worker has finished, whether or not it writes its result back and whichever wires are merged at the border. The points at which the worker has to meet the kept wires are exactly those at which they reach the region.", "quantifier": "all designs, regions, nets without overlapping wires, new routes and merging orders", "why_tests_cant": "global connectivity of unbounded nets across removal, insertion and merging", "anchors": ["src/dr/FlexDR_init.cpp: initNet_boundary", "src/dr/FlexDR_end.cpp: end, endRemoveNets, endAddNets, endAddNets_merge"]}
{"id": "C72", "title": "Costs for wires near a shape", "statement": "When the costs of a shape are added, a node of its layer is charged for wires at most once, and only if the metal of a wire through that node would come closer to the shape than the spacing the layer's rule gives for both widths and the length of the shape; for shapes at least as wide as the wire, every such node is charged, so an uncharged node keeps the spacing required for any run length. No other node is charged. (A shape narrower than the wire can be missed.)", "quantifier": "all shapes, technologies, grids and nodes", "why_tests_cant": "exact geometry over unbounded coordinates, non-uniform grids and arbitrary rule tables", "anchors": ["src/dr/FlexDR_maze.cpp: modMinSpacingCostPlanar, pt2boxDistSquare, box2boxDistSquare", "src/dr/FlexGridGraph.cpp: getIdxBox"]}
{"id": "C73", "title": "Costs for vias near a shape", "statement": "A node is charged for a via once if the via standing there (the default via or the one prescribed for that node) would come closer to the shape than the spacing for the run length the router assumes, and once for each end of line of the via in front of which the shape lies, as long as a prescribed via is not larger than the default via and end-of-line reaches do not exceed the spacing; an uncharged node keeps the spacing for the true run length.", "quantifier": "all shapes, technologies, vias, grids and nodes", "why_tests_cant": "windows and run lengths computed from several rules at once; all geometry", "anchors": ["src/dr/FlexDR_maze.cpp: modMinSpacingCostVia, modMinSpacingCostVia_eol, modMinSpacingCostVia_eol_helper"]}
{"id": "C74", "title": "Costs in front of line ends", "statement": "A node is charged for wires, and for vias, exactly once for every end of line of a shape in front of which the wire or the via would lie; no other node is charged.", "quantifier": "all shapes, end-of-line rules, vias, grids and nodes", "why_tests_cant": "four directions, several rules, all geometry", "anchors": ["src/dr/FlexDR_maze.cpp: modEolSpacingCost, modEolSpacingCost_helper"]}
{"id": "C75", "title": "Costs for vias near cuts", "statement": "Next to a cut, a node is charged once for every cut of the default via that one of the layer's cut spacing rules would forbid there (edge to edge or centre to centre, with parallel overlap, within the search distance of ADJACENTCUTS rules for blockages); by the rule between two cut layers a node of the other layer is charged once exactly if some cut of its default via would be too close. No other node is charged.", "quantifier": "all cuts, rules, vias, grids and nodes", "why_tests_cant": "the search window must contain every node at which some rule applies", "anchors": ["src/dr/FlexDR_maze.cpp: modCutSpacingCost, modInterLayerCutSpacingCost"]}
{"id": "C76", "title": "Costs for vias on wide shapes", "statement": "On a wide shape, a node is charged for a via once for every MINIMUMCUT rule that concerns vias of that kind on shapes of that width (and length), if the cuts of the default via would lie on the shape or, for a rule with LENGTH, diagonally off it within the rule's distance. (Vias straight beside the shape are not charged by a rule with LENGTH.)", "quantifier": "all shapes, rules, vias, grids and nodes", "why_tests_cant": "all geometry and rule sets", "anchors": ["src/dr/FlexDR_maze.cpp: modMinimumcutCostVia"]}
{"id": "C77", "title": "Design rule costs after rip-up and reroute", "statement": "After any sequence of adding and removing the costs of routed shapes (wires, patches, vias), as long as no counter exceeds 255, every design rule counter equals its first value plus the charges of the shapes now present, so it does not depend on the history; and where a counter is zero, a wire through the node or a via on it keeps its spacing to all routed metal and cuts now present.", "quantifier": "all histories of adding and removing shapes, all technologies and grids", "why_tests_cant": "unbounded histories over all geometry", "anchors": ["src/dr/FlexDR_maze.cpp: addPathCost, subPathCost, modPathCost", "src/dr/FlexGridGraph.h: addDRCCostPlanar, addDRCCostVia, subDRCCostPlanar, subDRCCostVia"]}
{"id": "C78", "title": "Cost updates stay on the grid", "statement": "Updating the costs of a shape that lies on the grid writes only design rule counters of nodes of the grid, provided no via or via rule reaches below its lowest or above its highest layer (otherwise a node with a negative index is written); a wire over which vias must not pass charges the nodes from its begin up to, but not including, its end.", "quantifier": "all shapes on the grid, technologies and grids", "why_tests_cant": "memory safety for all inputs: the cost functions do not check the index themselves", "anchors": ["src/dr/FlexDR_maze.cpp: modPathCost, modViaForbiddenThrough", "src/dr/FlexGridGraph.h: addDRCCostVia"]}
{"id": "C79", "title": "Blocked edges", "statement": "Blocking a box blocks exactly the edges of its layer (or the vias) with an end in the box; unblocking frees exactly these, also where another shape had blocked them. Around a power or ground via that breaks an ADJACENTCUTS rule with another one, every node where a cut would come closer than the rule allows is blocked for vias, and nothing else changes.", "quantifier": "all boxes, grids, cuts, rules and edges", "why_tests_cant": "all geometry; interaction of overlapping boxes", "anchors": ["src/dr/FlexDR_maze.cpp: modBlockedPlanar, modBlockedVia, modAdjCutSpacingCost_fixedObj"]}
{"id": "C80", "title": "Routes survive writing and reading", "statement": "Reading back the routes written for a net after detailed routing gives its wires and vias unchanged and in order (layer, ends, extensions, default width), independent of the other nets; patches are written but not read.", "quantifier": "all designs whose nets have different names, all wires with the default width of their layer, all vias with known definitions", "why_tests_cant": "round trip over all routes", "anchors": ["src/io/io.cpp: fillConnFigs_net, fillConnFigs, getDefNets", "src/io/defw.cpp: netf"]}
{"id": "C81", "title": "Merging keeps the centre lines", "statement": "The wires written for a net after track assignment cover exactly the centre lines of the assigned wires of positive length, layer by layer; each is horizontal or vertical with its ends in order, and no part of a line is written twice.", "quantifier": "all lists of horizontal and vertical wires, overlapping, touching or crossing in any way", "why_tests_cant": "all configurations of overlaps and crossings", "anchors": ["src/io/io.cpp: mergeSplitConnFigs"]}
{"id": "C82", "title": "Merging keeps the metal of default wires", "statement": "If all assigned wires have positive length and the default style of their layer, the file of the track assignment read back has exactly the same metal. In general an outer end of a merged wire gets the largest extension of the wires that end there. (An extension of another end that reaches further is lost, and wires of length zero are not written.)", "quantifier": "all assigned wires", "why_tests_cant": "all configurations of overlaps, crossings and end styles", "anchors": ["src/io/io.cpp: mergeSplitConnFigs, getDefNets", "src/io/defw.cpp: netf"]}
{"id": "C83", "title": "Vias in the file of the track assignment", "statement": "Of the vias of a net at one place of one cut layer exactly one is written, the one assigned last, and no other vias. Vias never split a wire. (Crossing wires are not always split at the crossing.)", "quantifier": "all lists of wires and vias", "why_tests_cant": "all lists", "anchors": ["src/io/io.cpp: mergeSplitConnFigs, splitVia_helper"]}
{"id": "C84", "title": "Wires read from a file", "statement": "A wire given by two points is read the same in both directions, each end keeping its extension; a via belongs to the last point of its path. (Of a path with more points only the first and the last are kept, so bends are lost.)", "quantifier": "all points, end styles, layers and vias", "why_tests_cant": "all paths", "anchors": ["src/io/io.cpp: getDefNets"]}
{"id": "C85", "title": "Coordinates of the maze grid", "statement": "The routing grid of a region has exactly these coordinate lines: the sides of the route box and of the extended box, the tracks of the routing layers inside the extended box, and the coordinates its existing wires, vias and access points need; each once, in increasing order. Its layers are the routing layers with their directions; no node is a source, a target or labelled; the guide marks are set exactly if guides are ignored.", "quantifier": "all technologies, boxes, lists of existing objects and track patterns", "why_tests_cant": "all combinations of tracks and objects; maps of maps filled in several passes", "anchors": ["src/dr/FlexDR_init.cpp: initTrackCoords, initTrackCoords_route, initTrackCoords_pin, initGridGraph", "src/dr/FlexGridGraph.cpp: initGrids, initTracks, init"]}
{"id": "C86", "title": "Edges of the maze grid", "statement": "The new grid has an edge along a layer exactly between neighbouring nodes inside the route box on a layer open to wires that follow a track, or a line an existing object needs if the layer is not restricted to its tracks, and, if wires against the preferred direction are allowed, on the lines of the neighbouring layer; a via edge exactly where a line of the layer crosses a line of the layer above, each a track if its layer is restricted. In the initial iteration the edges on the right and top side of the box belong to the neighbour.", "quantifier": "all technologies, boxes, lists of objects and nodes", "why_tests_cant": "all nodes of all grids; the edges are stored in packed bits by three nested loops", "anchors": ["src/dr/FlexGridGraph.cpp: initEdges"]}
{"id": "C87", "title": "Off-track marks of the maze grid", "statement": "An edge of the new grid is marked as off-track (and pays the extra cost) exactly if it runs against the preferred direction of its layer or does not follow a track of it; a via edge exactly if one of its two lines is not a track.", "quantifier": "all technologies, boxes, lists of objects and edges", "why_tests_cant": "all edges of all grids", "anchors": ["src/dr/FlexGridGraph.cpp: initEdges"]}
{"id": "C88", "title": "Existing objects find their nodes", "statement": "After the grid of a region is built every existing wire, via (between layers of different direction) and access point of its nets finds its grid nodes: the nodes of exactly its points, for a wire those of the part inside the extended box.", "quantifier": "all technologies, boxes and objects", "why_tests_cant": "the error branch must be unreachable for all inputs", "anchors": ["src/dr/FlexDR_init.cpp: initMazeIdx, initMazeIdx_connFig, initMazeIdx_ap"]}
{"id": "C89", "title": "Existing routes are paths of the grid", "statement": "A wire of an existing route that lies in the route box is a path of the new grid: its ends lie in one row or column and all edges between them exist, if the layer is open and not restricted to its tracks (or, against the preferred direction, such wires are allowed); an existing via is an edge, and an access point has an edge to the layer above, if the two layers run in different directions and are not restricted. So the router can find the old route again. (A via between layers of the same direction has no edge.)", "quantifier": "all technologies, boxes and objects", "why_tests_cant": "all routes in all regions", "anchors": ["src/dr/FlexDR_init.cpp: initTrackCoords, initMazeIdx", "src/dr/FlexGridGraph.cpp: initEdges"]}
{"id": "C90", "title": "Track flags of access points", "statement": "An access point strictly inside the extended box loses its flag for horizontal tracks exactly if its own layer or the layer above is horizontal, open to wires, not restricted to its tracks, and the point is on none of its tracks; likewise for vertical tracks. (On restricted layers off-track points keep the flag.)", "quantifier": "all technologies, boxes, objects and access points", "why_tests_cant": "all positions; the flags are read from the marks of neighbouring edges", "anchors": ["src/dr/FlexDR_init.cpp: initMazeIdx_ap"]}
{"id": "C91", "title": "The cost of a reported path", "statement": "The cost the maze search works with for the path it reports is exactly the cost of that path: for every step its length times one plus the factors of the marks on the edge (off-track 2, fixed shape 8, violation and marker factors, 1 off the guide), a fixed amount if blocked, 1 for a change of direction, and the penalties for a via or a planar turn at a forbidden distance from the via before. A via at a forbidden distance from a turn is never penalised.", "quantifier": "all grids, cost factors, tables, pins, queue orders and walks", "why_tests_cant": "all paths through all grids", "anchors": ["src/dr/FlexGridGraph_maze.cpp: expand, getNextPathCost", "src/dr/FlexWavefront.h: FlexWavefrontGrid"]}
{"id": "C92", "title": "The estimate of the maze search", "statement": "The estimate added to the cost of a partial path never exceeds what any continuation to an access point of the pin costs, is 0 at every access point, and for a pin with one access point is the distance to it plus one for every axis still to be travelled other than the current one.", "quantifier": "all grids, pins, partial paths and continuations", "why_tests_cant": "all continuations of all partial paths", "anchors": ["src/dr/FlexGridGraph_maze.cpp: getEstCost, search"]}
{"id": "C93", "title": "The reported path is nearly the cheapest", "statement": "The path the maze search reports costs at most what any other path from the source to the pin costs plus, per step of the latter, twice one more than the largest forbidden-distance penalty (plus 2 per step if there are no forbidden distances). It need not be the cheapest.", "quantifier": "all grids, cost factors, tables, pins, and all other paths", "why_tests_cant": "all pairs of paths in all grids", "anchors": ["src/dr/FlexGridGraph_maze.cpp: search, expandWavefront, expand", "src/dr/FlexWavefront.h: operator<"]}
{"id": "C94", "title": "Costs do not affect completeness", "statement": "Whatever the costs, factors, tables and ties in the queue, the maze search finds a path exactly if the pin is reachable from the source over edges of the grid, and the path is simple, follows edges, starts at the pin, ends at the source and meets neither in between.", "quantifier": "all grids, costs, tables, pins and queue orders", "why_tests_cant": "all grids and all orders of equal entries", "anchors": ["src/dr/FlexGridGraph_maze.cpp: search, expandWavefront, expand, traceBackPath"]}
{"id": "C95", "title": "Every run below the minimum area gets a patch", "statement": "After a path is found, a part of it on one layer (stacked vias taken apart level by level) gets a metal patch exactly if its wire area plus the half vias at its ends, or at the ends of the path the area known at the access point, stays below the minimum area of the layer; each patch request carries the two ends, the missing area and the sides that point away from the wire.", "quantifier": "all paths whose layer changes are straight, all technologies and area maps", "why_tests_cant": "all paths of all lengths with all sequences of layer changes", "anchors": ["src/dr/FlexDR_maze.cpp: routeNet_postAstarPatchMinAreaVio"]}
{"id": "C96", "title": "The patched metal reaches the minimum area", "statement": "For a straight run along the preferred direction between two vias, on a layer of even width, the union of the wire, the two via shapes and the added patch covers at least the minimum area; without a patch the wire and vias cover it already. The patch has the default width, starts at one end of the run and has the smallest length on the manufacturing grid that brings the missing area. With an odd width the patch is too small.", "quantifier": "all runs, via sizes, grids and technologies", "why_tests_cant": "geometric area of all unions of shapes", "anchors": ["src/dr/FlexDR_maze.cpp: routeNet_postAstarPatchMinAreaVio, routeNet_postAstarAddPatchMetal, routeNet_postAstarAddPatchMetal_addPWire", "src/dr/FlexDR.cpp: init_halfViaEncArea"]}
{"id": "C97", "title": "The better end gets the patch", "statement": "A patch is clean exactly if its far end stays in the route box and no grid node under its centre line (other than the first of the row) carries a mark of a violation, a fixed shape or a marker. If one of the two ends allows a patch inside the route box, or a clean one, the chosen one is so. If neither stays inside, the patch is placed nevertheless.", "quantifier": "all grids, marks, cost factors and patch requests", "why_tests_cant": "all states of the grid", "anchors": ["src/dr/FlexDR_maze.cpp: routeNet_postAstarAddPathMetal_isClean, routeNet_postAstarAddPatchMetal"]}
{"id": "C98", "title": "Areas at the access points", "statement": "The area used at a node is the largest area of the access points there. At a point where a route leaves the region it is length times width of the wires of the net that leave the region there; a via at the outer end of such a wire is not counted unless its own metal reaches the point.", "quantifier": "all lists of access points, all objects of the net", "why_tests_cant": "all configurations around the boundary", "anchors": ["src/dr/FlexDR_maze.cpp: routeNet_prepAreaMap", "src/dr/FlexDR_init.cpp: initNets_boundaryArea"]}
{"id": "C99", "title": "Default via", "statement": "The default via of a cut layer is a via of a single cut to which no other single-cut via between the same layers is preferred: DEFAULT vias first, then narrower lower metal, narrower upper metal, upper metal along its layer, smaller metal areas, lower metal along its layer. A layer at or above the lowest routing layer without such a via stops the program. Among vias of equal rank the choice depends on their order in memory.", "quantifier": "all sets of via definitions, directions of layers and orders in memory", "why_tests_cant": "all sets of vias and all tie situations", "anchors": ["src/io/io_parser_helper.cpp: initDefaultVias, getViaRawPriority"]}
{"id": "C100", "title": "Generated vias follow the layers", "statement": "With via generation the default via has its metal along the preferred direction of both layers. If the chosen via already matches, it is taken itself; otherwise a via is generated whose metal and cut have the sizes of the chosen one, and its metal still encloses the cut if the cut is symmetric in x and y. An unsymmetric cut can lose its enclosure.", "quantifier": "all via definitions and layer directions", "why_tests_cant": "all shapes of vias", "anchors": ["src/io/io_parser_helper.cpp: initDefaultVias"]}
{"id": "C101", "title": "Width of a cut layer", "statement": "The width of a cut layer is that of LEF if given, otherwise the shorter side of the cut of the default via; the program stops exactly if there is neither on a layer at or above the lowest routing layer. With via definitions of positive size the width is positive.", "quantifier": "all cut layers, via definitions and widths", "why_tests_cant": "all technologies", "anchors": ["src/io/io_parser_helper.cpp: initCutLayerWidth"]}
{"id": "C102", "title": "Rules between cut layers reach their layer", "statement": "The spacing rule between a cut layer and another one for different nets is the one LEF gives for the name of the other layer, none if there is none. The rule for the same net is the one given, but only if a rule for different nets is given too.", "quantifier": "all technologies and sets of rules", "why_tests_cant": "all name tables and rule sets", "anchors": ["src/io/io_parser_helper.cpp: initConstraintLayerIdx"]}
{"id": "C103", "title": "Pitch and offset of the GCell grid", "statement": "The pitch of the GCells in x is the most frequent width of the guides on vertical layers, that in y the most frequent height of the guides on horizontal layers, the smallest of equally frequent ones; the lines are shifted by the most frequent offset of all guides. The first line is at or before the die edge, less than one pitch away, and the last one is less than one pitch before the other edge. Without guides in both directions the program stops.", "quantifier": "all sets of guides and dies with coordinates that are not negative", "why_tests_cant": "all guide sets of all sizes", "anchors": ["src/io/io_parser_helper.cpp: buildGCellPatterns, buildGCellPatterns_getWidth, buildGCellPatterns_getOffset"]}
{"id": "C104", "title": "The derived GCell grid fits the die", "statement": "If the first GCell ends inside the die, the derived grid fits the die, so that everything said about GCells and workers holds for it; and guides drawn on one common raster have all sides on its lines. With a negative die corner the first GCell is too wide, with negative guides the lines miss the guides, a die smaller than a GCell gets a grid without GCells, and an even number of layers ends in an exception.", "quantifier": "all sets of guides and dies", "why_tests_cant": "all guide sets, all dies", "anchors": ["src/io/io_parser_helper.cpp: buildGCellPatterns"]}
{"id": "C105", "title": "The guide file means what it says", "statement": "A guide file is read without an error exactly if each of its lines is empty, a single parenthesis, the name of a net, or four numbers and the name of an allowed layer after some net name; the guides read are those of the lines, each for the net named last. A file in the usual format is read completely and in order. A blank or carriage return at the end of a line makes it unreadable.", "quantifier": "all texts, all tables of names", "why_tests_cant": "all texts of all lengths", "anchors": ["src/io/io.cpp: readGuide"]}
{"id": "C106", "title": "Written guides can be read back", "statement": "The guide file written at the end of guide processing is read back with every guide for its net, on its layer, from the corner of its first GCell to that of its last one, if no guide spans two layers. With such a guide the file cannot be read back.", "quantifier": "all nets, guides, grids that fit the die and name tables", "why_tests_cant": "all designs; the round trip goes through text", "anchors": ["src/io/io_parser_helper.cpp: writeGuideFile", "src/io/io.cpp: readGuide"]}
{"id": "C107", "title": "The reference DEF keeps the input and declares the generated vias", "statement": "In the reference DEF the generated vias are added to the VIAS section, with the right count, or to a new one before the components if there is none; all other lines are kept, in order. A section header on two lines is not recognised, and without a line that begins the components the vias are not declared.", "quantifier": "all DEF texts and lists of generated vias", "why_tests_cant": "all texts", "anchors": ["src/io/io_parser_helper.cpp: writeRefDef"]}
{"id": "C108", "title": "Spacing of corners", "statement": "The check of the spacing of corners records, without duplicates and in whatever order the shapes are looked at, exactly the pairs of a corner of the kind of the rule and a rectangle in its outward quadrant that are closer in both directions than the rule requires for a rectangle of metal ending in that corner, except at line ends and where all the metal is fixed. At every corner there is exactly one quadrant leading away from the metal. A rule for concave corners does not apply to the angle of an L-shaped wire, because no maximal rectangle ends there.", "quantifier": "all outlines, rectangles and rules with the same spacing in both directions, with and without a target net", "why_tests_cant": "all arrangements of shapes and search orders", "anchors": ["src/gc/FlexGC_main.cpp: checkMetalCornerSpacing, checkMetalCornerSpacing_main, isCornerOverlap", "src/gc/FlexGC_init.cpp: initNet_pins_polygonCorners_helper"]}
{"id": "C109", "title": "Boundary pins of the first iteration", "statement": "In the first iteration a region gets, for every wire of track assignment, a pin exactly where the wire reaches a border of the region or a GCell line that is a border, at the side from which it comes. Two regions side by side get the same pins of a net on their common border, unless a wire of the net runs along the border; then only one of them gets pins there. If every region connects its pins of a net, all places where a wire crosses borders are connected.", "quantifier": "all wires of track assignment inside the die, all grids that fit the die, all region sizes", "why_tests_cant": "all grids, wire sets and sizes; the connection runs over arbitrarily many regions", "anchors": ["src/dr/FlexDR.cpp: initGCell2BoundaryPin, initDR_mergeBoundaryPin"]}
{"id": "C110", "title": "Iterations of detailed routing", "statement": "If the run ends without an error exit, every net has either the shapes it began with or shapes that passed the connectivity check. Once no violation is left after at least two iterations, the design is not changed any more. During consecutive repair iterations the number of violations and the numbers reported never go up, as long as every violation is smaller than a region by twice the safety distance. No iteration is skipped while a violation is left; the iterations 0, 1, 2, 17, 25, 33, 41, 49 and 57 rip up everything, all others only repair.", "quantifier": "all designs, all results of the regions, all orders in which the regions of a batch finish, all outcomes of the connectivity check", "why_tests_cant": "all histories of up to 65 iterations with any number of regions", "anchors": ["src/dr/FlexDR.cpp: main, searchRepair", "src/dr/FlexDR_conn.cpp: checkConnectivity", "src/dr/FlexDR_end.cpp: end", "src/dr/FlexDR_init.cpp: init, initMarkers"]}
{"id": "C111", "title": "No place stays on a border", "statement": "Every point of the die is inside a region, not on its border, in one of the first three iterations, and in one of any three iterations of each repair round of seven.", "quantifier": "all points of all dies with a grid that fits", "why_tests_cant": "all grids and points", "anchors": ["src/dr/FlexDR.cpp: main, searchRepair"]}
{"id": "C112", "title": "Whose shapes are whose", "statement": "The violation checker treats two shapes as belonging together exactly if they are connected to the same net, or both are unconnected power pins, or both are unconnected ground pins, or they are shapes of one and the same unconnected object.", "quantifier": "all pairs of objects of a design", "why_tests_cant": "all combinations of kinds, nets and uses", "anchors": ["src/gc/FlexGC_init.cpp: getNet"]}
{"id": "C113", "title": "The checker follows the routing", "statement": "At the start of the routing of a region, after every rerouted net, at every check of an entry of the queue, and at the final check whose violations are reported, the checker knows exactly the fixed shapes and the present routes of the nets of the region: the incremental updates give what a fresh initialisation would give, and the routes kept are those found last. The exception, for one process node, are patches made in an initial check.", "quantifier": "all sets of fixed shapes and nets, all sequences of reroutings and checks, all patches", "why_tests_cant": "all histories of reroutings and checks", "anchors": ["src/gc/FlexGC_init.cpp: init, initDesign, initDRWorker, initDRObj, updateGCWorker", "src/db/gcObj/gcNet.h: addPolygon, addRectangle, clear", "src/gc/FlexGC_main.cpp: main", "src/dr/FlexDR_maze.cpp: route_queue, route_queue_main"]}
{"id": "C114", "title": "Maximal rectangles", "statement": "The rectangles on which the spacing and short checks work are exactly the maximal rectangles of the metal of a net, each once; every rectangle of metal lies in one; two nets overlap exactly if two of their maximal rectangles do, and shapes that come too close lie in maximal rectangles that come as close, run alongside at least as far and are at least as wide. A rectangle is marked fixed exactly if all of it is fixed metal. There is only one exactly if the metal is a rectangle.", "quantifier": "all sets of boxes", "why_tests_cant": "all shapes, of any size and number of boxes", "anchors": ["src/gc/FlexGC_init.cpp: initNet_pins_maxRectangles, initNet_pins_maxRectangles_helper, initNet_pins_maxRectangles_getFixedMaxRectangles, initNet_pins_polygonCorners_helper"]}
{"id": "C115", "title": "Layers that allow rectangles only", "statement": "On a layer with the rectangles-only rule a rectangle is never reported, however it is composed. Of other metal exactly the maximal rectangles within the minimum width of those concave corners are reported that have routed metal within that distance. Routed metal in one piece that is not a rectangle is always reported.", "quantifier": "all shapes, outlines and minimum widths", "why_tests_cant": "all shapes, of any size and number of boxes", "anchors": ["src/gc/FlexGC_main.cpp: checkMetalShape_rectOnly"]}
{"id": "C116", "title": "Connectivity read from DEF", "statement": "After a DEF file has been read, a net has exactly the pins that its connections name: (PIN p) the pin p of the design, (inst p) the terminal p of that component, (* p) the terminal p of every component. Every pin knows the last net that names it, and none if no net does. If no pin is named by two nets, the lists of the nets and the pins agree. The program does not notice a pin named by two nets: both list it, the pin knows the second.", "quantifier": "every sequence of DEF records that is read to its end, every library, every net and pin", "why_tests_cant": "A test reads a few files; the relation between the two directions must hold for all files.", "anchors": ["src/io/io.cpp: getDefNets"]}
{"id": "C117", "title": "Every object of a DEF file is read once", "statement": "After a DEF file has been read, the components, pins, nets, track statements and blockages of the design are those of the file, each once, in order, with their names, places, orientations, uses and shapes. No two components have one name, no two terminals, obstructions or nets one id. The file is read to its end exactly if every record fits what stands before it: known cells and layers, unused component names, known pins, known USE words, routes that name a layer, vias on three consecutive layers.", "quantifier": "every sequence of DEF records, every library and technology", "why_tests_cant": "Acceptance and the ids depend on the whole history of records read before.", "anchors": ["src/io/io.cpp: getDefComponents, getDefTerminals, getDefNets, getDefTracks, getDefBlockages, getDefVias, readDef"]}
{"id": "C118", "title": "Fixed shapes found near a place", "statement": "A query of the fixed shapes for a box and a layer returns exactly the rectangles on that layer that share a point with the box among: terminals and obstructions of components (moved to the place of the component), pins of the design, wires and vias of special nets, and blockages; each with its owner. Polygons are left out.", "quantifier": "every design read from a file, every box, every layer", "why_tests_cant": "Soundness and completeness of the search structure must hold for all designs.", "anchors": ["src/frRegionQuery.cpp: init, add, query"]}
{"id": "C119", "title": "Routed shapes found near a place", "statement": "However wires, vias and patches are created, changed and removed during routing, a query of the routed shapes returns every existing object on the layer that meets the box, with its present shape, once, and nothing else. This depends on taking an object out before its points are changed.", "quantifier": "every initial set of routed objects and every history of edits", "why_tests_cant": "Stale entries appear only after particular histories.", "anchors": ["src/frRegionQuery.cpp: addDRObj, removeDRObj, initDRObj, queryDRObj", "src/dr/FlexDR_end.cpp", "src/dr/FlexDR_conn.cpp"]}
{"id": "C120", "title": "Vias defined in a design", "statement": "A via generated by a rule has rows times columns of cuts with the given sizes and spacings, centred on ORIGIN to within half a unit, and on each routing layer one rectangle: that of all cuts enlarged by the enclosure and moved by the offset. A via given by rectangles has those on the lowest of its three layers, the cuts and those on the highest. A via with a rectangle on an unknown layer is skipped. A route that uses a name gets the definition given last.", "quantifier": "every sequence of DEF via records, all sizes, spacings, enclosures, offsets, numbers of rows and columns", "why_tests_cant": "Centering and enclosure are arithmetic identities over all sizes.", "anchors": ["src/io/io.cpp: getDefVias", "src/db/tech/frTechObject.h: addVia"]}
{"id": "C121", "title": "Library cells and their placement", "statement": "After LEF macros have been read, the cells are those of the file in order, with their terminals and obstructions; a shape belongs to the last LAYER before it and is kept exactly if that layer is known. The orientations N W S E FN FW FS FE turn and mirror as DEF defines them, and the rectangle of a cell between ORIGIN and SIZE is placed with its lower left corner at the point given for the component. The library is read to its end exactly if every USE is SIGNAL, CLOCK, POWER or GROUND.", "quantifier": "every list of LEF macros, every orientation, every point and placement with ORIGIN at most SIZE", "why_tests_cant": "The set of kept shapes depends on the whole sequence of items; the placement must be right for all points.", "anchors": ["src/io/io.cpp: getLefMacros, getLefPins, getLefObs", "src/db/obj/frInst.cpp: getUpdatedXform", "src/frBaseTypes.h: frOrientEnum"]}
{"id": "C122", "title": "Places that track assignment counts as blocked for vias", "statement": "A wire or via placed by track assignment blocks, for the vias on the cut layer above or below, exactly those points of the panel's tracks at which the metal of the default via would be closer to it than the spacing rule of the layer allows. Its cuts block exactly the points at which a cut would be too near for a rule for different nets on one layer; for a rule between centres the points at the very distance may be blocked as well. Whether a cut rule is restricted to large cuts makes no difference.", "quantifier": "all shapes, default vias, spacing rules and tables, sets of cut rules, positions of tracks, both directions of panels", "why_tests_cant": "The set of blocked points is unbounded in sizes, tables and track positions, and involves square roots that are off by one at the boundary.", "anchors": ["src/ta/FlexTA_assign.cpp: modMinSpacingCostVia, modCutSpacingCost"]}
{"id": "C123", "title": "Places that track assignment counts as blocked for wires", "statement": "A shape placed by track assignment blocks, for wires of its layer, exactly those points of the panel's tracks at which the end of a wire would be closer than the spacing rule allows. (Holds for the lowest of the tracks near the shape. On the others it is false: the reference box is moved on from track to track instead of being placed anew, so points that are too near are left free and others depend on the root of a negative number.)", "quantifier": "all shapes, widths, spacing rules, positions of tracks, both directions of panels", "why_tests_cant": "Which tracks are affected depends on the ratio of pitch, width and spacing.", "anchors": ["src/ta/FlexTA_assign.cpp: modMinSpacingCostPlanar"]}
{"id": "C124", "title": "Track assignment forgets where wires were", "statement": "At any time of a later pass of track assignment, whatever has been moved before, the blocked places and the shapes stored for a panel are those that a fresh start with the wires at their present places would store: those of the fixed objects and of each figure of each wire, once.", "quantifier": "every panel, every set of wires and fixed objects, every order in which wires are taken, every number of rounds", "why_tests_cant": "A record left behind or removed twice shows only after particular histories.", "anchors": ["src/ta/FlexTA_assign.cpp: addCost, subCost, assignIroute_init, assignIroute_updateIroute", "src/ta/FlexTA_init.cpp: initCosts"]}
{"id": "C125", "title": "The violation costs of track assignment are up to date", "statement": "At any time of a later pass of track assignment a wire of the panel has recorded cost 0 if and only if it lies on no place that is blocked by a fixed object that is not of its net, or by the present place of a wire of another net. The total is the sum of the costs, and 0 if and only if no wire lies on a blocked place. The program does not exit in the middle of the pass, as long as no place has a cost of 2^32 - 1 or more.", "quantifier": "every panel, every set of wires and fixed objects, every order in which wires are taken, every number of rounds", "why_tests_cant": "The costs are updated incrementally; a missed update needs a particular history.", "anchors": ["src/ta/FlexTA_assign.cpp: assignIroute_updateOthers, assignIroute_getDRCCost", "src/ta/FlexTA_init.cpp: initCosts"]}
{"id": "C126", "title": "A later pass of track assignment overlooks no wire", "statement": "A later pass ends. Then every wire of the panel that lies on a blocked place has been given a track at least once. Wires that have not been given one, and wires of other panels, are where they were; the others have been moved as a whole, across the tracks only, onto a track of the panel inside their GCell. A wire with cost 0 has no via whose lower metal is too near to a wire of another net.", "quantifier": "every panel, every set of wires and fixed objects, every order in which wires are taken", "why_tests_cant": "Liveness and completeness of the reassignment set over all histories.", "anchors": ["src/ta/FlexTA_assign.cpp: assign, assignIroute, assignIroute_updateOthers, assignIroute_availTracks"]}
{"id": "C127", "title": "Track assignment gives each guide one wire that reaches its neighbours", "statement": "A pass of track assignment over one direction, with the panels in any order and batches, leaves each guide of that direction with exactly one wire, on its layer and on the track chosen for it, and the other guides as they were. If the guides of the other direction have wires on tracks inside their rows of GCells, the new wire contains the crossings with the wires of all guides of its net that meet its ends one layer above or below, ends at the outermost of them (in the centre of the GCell if there is none), is at least one unit long, and has a via exactly at these crossings. In the very first pass it runs from centre to centre. (After the first round of both directions the wires of a net need not meet: the wires of the first pass are not extended to the tracks chosen later.)", "quantifier": "all designs, grids of GCells, sets of guides, chosen tracks, orders and batches of panels", "why_tests_cant": "Every shape of a guide tree, grid and order of panels must be covered; the panels of one batch are worked on at the same time.", "anchors": ["src/ta/FlexTA_init.cpp: initIroute, initIroute_helper, initIroute_helper_generic, initIroute_helper_generic_helper, initIroute_helper_pin", "src/ta/FlexTA_end.cpp: saveToGuides", "src/ta/FlexTA.cpp: initTA, initTA_helper"]}
{"id": "C128", "title": "Track assignment pulls wires to the access points of their pins", "statement": "A wire is pulled across its tracks if and only if a terminal of its net lies at an end of its guide, and then towards an access point of such a terminal inside the panel. (False in two cases: if no terminal there has an access point in the panel, as for pins of the design, the wire is pulled towards coordinate 0; and a pin without an access point hides those of the pins after it.)", "quantifier": "all guides, terminals, access points and panels", "why_tests_cant": "The failing cases need particular combinations of terminals, pins and access points.", "anchors": ["src/ta/FlexTA_init.cpp: initIroute_helper_generic, initIroute_helper_generic_endpoint, initIroute_helper_pin"]}
{"id": "C129", "title": "Places that fixed shapes block in track assignment", "statement": "A point of a track of the panel is blocked for the wires of a net by the fixed shapes if and only if the square end of a wire of default width there would be nearer, along x and along y, than the distance to be kept to a fixed shape found around the panel which is a blockage or belongs to another net or to none. The distance is the width of the layer for terminals, and the spacing of the layer for the width and length of the shape for wires, vias and blockages. So every place where the end of a wire would be closer than that distance is blocked.", "quantifier": "all fixed shapes, widths, spacing rules and tables, positions of tracks, both directions of panels", "why_tests_cant": "Unbounded in sizes, tables and track positions.", "anchors": ["src/ta/FlexTA_init.cpp: initFixedObjs, initFixedObjs_helper, initFixedObjs_calcBloatDist, initFixedObjs_calcOBSBloatDistVia", "src/ta/FlexTA_assign.cpp: addCost"]}
{"id": "C130", "title": "A wire of cost 0 keeps its distance from fixed shapes", "statement": "After a later pass of track assignment, a wire whose recorded cost is 0 is nowhere on a track of its layer nearer to a fixed shape around the panel than the distance to be kept, unless the shape is of its own net.", "quantifier": "every panel, every set of wires and fixed shapes, every order in which wires are taken, every number of rounds", "why_tests_cant": "Composes the blocked places with all histories of the pass.", "anchors": ["src/ta/FlexTA_init.cpp: initFixedObjs", "src/ta/FlexTA_assign.cpp: assign, assignIroute_getDRCCost"]}
{"id": "C131", "title": "Every pin of a net is joined by its final guides", "statement": "If the guides of a net connect its pins, the program always gets its final guides (it never exits with 'pin dangling'). Every pin is given at least one place; each place is a GCell that the pin touches, on that layer, and an end of a final guide. All final guides and places hang together: along guides, by changes of layer where guides end, and across the metal of the first pin; across the metal of other pins only if the program allows it or the search without it failed.", "quantifier": "all nets with at least two pins, all sets of guides, all orders in which the search takes its entries", "why_tests_cant": "Every shape of guides, every choice among equal paths; the predecessors of several rounds of the search are combined.", "anchors": ["src/io/io_guide.cpp: genGuides, genGuides_final, genGuides_astar"]}
{"id": "C132", "title": "Final guides lie inside the given guides and do not dangle", "statement": "Each final guide of a net runs straight along one track of GCells covered by the merged input guides. No end dangles: where a final guide ends there is a pin, or another final guide ends there on its layer or on the layer above or below; parts beyond are cut off. The guide objects made from them run between centres of GCells on routing layers in the preferred direction, as track assignment expects, and each pin lies at an end of one of them on its layer.", "quantifier": "all nets with at least two pins, all sets of guides, all orders of the search, all grids of GCells", "why_tests_cant": "Cutting at one end must not take away what another guide or pin needs; no set of examples covers all shapes.", "anchors": ["src/io/io_guide.cpp: genGuides_final", "src/db/obj/frBlock.h: getGCellCenter"]}
{"id": "C133", "title": "Access points of a terminal lie in its region and on its metal", "statement": "Every access point that detailed routing uses for a terminal in a region lies in that region, boundary included, and in the first iteration not at its upper right corner. One that had to be made up (because pin access left none in the region) lies on metal of the terminal on a routing layer, provided terminals of the design are drawn on the manufacturing grid. For a pin of an instance it may be left upwards, never downwards, along its layer only if this is not the layer reserved for vias to pins, and it costs more than any point of pin access; for a terminal of the design that is met by tracks it may be left along the longer side only.", "quantifier": "all terminals, technologies, track patterns, regions and iterations", "why_tests_cant": "Rectangles cut by the region, centre lines rounded to the grid and track patterns combine in unboundedly many ways.", "anchors": ["src/dr/FlexDR_init.cpp: initNet_term_new, initNet_termGenAp_new, getTrackLocs"]}
{"id": "C134", "title": "When the program gives up on a terminal", "statement": "For regions at coordinates that are not negative, the program ends with 'still does not have temp ap' exactly when pin access left no access point that the region may use and no metal of the terminal on a routing layer lies in the closed region (in the first iteration, other than at its upper right corner). It does not divide by zero if the technology has a manufacturing grid.", "quantifier": "all terminals, technologies, regions and iterations", "why_tests_cant": "The exit is taken only in rare positions of a rectangle and the region; tests cannot show that there is no other.", "anchors": ["src/dr/FlexDR_init.cpp: initNet_term_new, initNet_termGenAp_new"]}
{"id": "C135", "title": "The points of pin access are used when there are any", "statement": "If pin access left a point of the terminal that the region may use (in the region, not its upper right corner in the first iteration, not on the upper or right side of layers whose shapes must be rectangles), the terminal has exactly all such points: same layer, moved with the instance but not turned again, same directions and vias, and of cost 0 exactly for the point chosen for its pin, else 1.", "quantifier": "all instances, all results of pin access with points for every pin, all regions", "why_tests_cant": "Every position of the instance relative to the region.", "anchors": ["src/dr/FlexDR_init.cpp: initNet_term_new"]}
{"id": "C136", "title": "How crowded a net is", "statement": "Each net of a region gets the smallest box around the points that stand for its pins (the first access point of cost 0, or else the first) and the number of pins of all nets whose point lies in that box; a net without pins gets the extended region and the number 99999.", "quantifier": "all nets of a region, all access points in the extended region", "why_tests_cant": "The order of rerouting depends on this number for every set of nets.", "anchors": ["src/dr/FlexDR_init.cpp: initNets_numPinsIn"]}
{"id": "C137", "title": "Costs of fixed shapes are restored around each net", "statement": "Between two nets every counter of fixed shapes in a region's grid holds exactly the charges of all obstructions, terminals and special wires; while a net is routed it holds these less the charges of that net's own terminals, which it may therefore come near. So the order in which nets are routed and how often does not matter. In particular, where the counters of fixed and of routed shapes are both zero, a wire or default via of the net being routed keeps its spacing to all obstructions, special wires, terminals and routes of other nets.", "quantifier": "all sets of fixed shapes and nets, all orders and repetitions of routing, all results of the search, charges up to 255", "why_tests_cant": "The counters are changed by every net, with rounding at 0 and 255, and nothing compares them with the shapes again.", "anchors": ["src/dr/FlexDR_init.cpp: initMazeCost_fixedObj, initMazeCost_terms", "src/dr/FlexDR_maze.cpp: mazeNetInit, mazeNetEnd, route_queue_main"]}
{"id": "C138", "title": "Costs of routed shapes match the shapes there are", "statement": "As long as the checker adds no patches, every counter of routed shapes holds at each moment exactly the charges of the shapes of all nets, inside and outside the region, and of the vias reserved for nets not routed yet. The net being routed has no charges of its own, except those its vias outside the region make by minimum cut rules. A place that no other net's shapes charge looks free to it.", "quantifier": "all nets, all orders and repetitions of routing, all results of the search, charges up to 255", "why_tests_cant": "Every sequence of ripping up and routing must leave the counters in step.", "anchors": ["src/dr/FlexDR_maze.cpp: route_queue_main, mazeNetInit, mazeNetEnd, routeNet_postRouteAddPathCost", "src/dr/FlexDR_init.cpp: initMazeCost_connFig, initMazeCost_via_helper, initMazeCost_minCut_helper"]}
{"id": "C139", "title": "Patches never make a place look more expensive than it is", "statement": "With patches added by the checker, no counter of routed shapes ever holds more than the shapes there are charge. It may hold less: a place next to another net's shape can look free.", "quantifier": "all nets, patches, orders of routing, charges up to 255", "why_tests_cant": "Patches are charged at a different moment than they are taken off; the difference shows only after several rounds.", "anchors": ["src/dr/FlexDR_maze.cpp: route_queue_main"]}
{"id": "C140", "title": "Fixed shapes are overlooked only at a net's own access points", "statement": "In a region whose grid starts without overrides, fixed shapes are overlooked for a via exactly while a net is routed, and exactly at the access points of its own standard cell pins and design terminals that allow the via up. Everywhere else, and between nets, a counter that is not zero costs.", "quantifier": "all nets, all orders of routing, all nodes", "why_tests_cant": "The overrides are bits set and cleared around every net.", "anchors": ["src/dr/FlexDR_init.cpp: initMazeCost_ap_helper", "src/dr/FlexDR_maze.cpp: mazeNetInit, mazeNetEnd"]}
{"id": "C141", "title": "Which edges cost extra for being off the tracks", "statement": "Between nets an edge carries the extra cost iff it did at the start or lies on one of the lines from the access points of a net routed before; while a net is routed, moreover not on one of that net's lines. A line runs from an access point (or its layer above) in one direction as far as ten times the wire width beyond the next node. Walking it stays inside the grid iff some coordinate lies beyond that length.", "quantifier": "all nets, orders of routing, grids and access points", "why_tests_cant": "Lines of different nets overlap in any way, and each net clears and sets them again.", "anchors": ["src/dr/FlexDR_init.cpp: initMazeCost_ap_planarGrid_helper, initMazeCost_ap_helper", "src/dr/FlexGridGraph.h: getEdgeLength"]}
{"id": "C142", "title": "Blocked edges at pins", "statement": "Which edges are blocked does not change while nets are routed. An edge that starts or ends in the rectangle of a design terminal is blocked if it leads up, down or across the terminal's longer side; otherwise the last access point at one of its ends decides by the directions it allows, whatever blocked the edge before; otherwise it is as fixed shapes left it.", "quantifier": "all nets, access points, terminals and grids", "why_tests_cant": "Access points and terminals of many nets set and clear the same bits in turn.", "anchors": ["src/dr/FlexDR_init.cpp: initMazeCost_ap, initMazeCost_planarTerm"]}
{"id": "C143", "title": "One via is reserved for each pin", "statement": "When all nets of a region are to be routed, for each pin of a standard cell or terminal of the design a via is reserved at the cheapest of its access points that have one; for pins of macros and pins without such a point none.", "quantifier": "all pins and lists of access points", "why_tests_cant": "The choice must hold for every list of access points and costs.", "anchors": ["src/dr/FlexDR_init.cpp: initMazeCost_via_helper"]}
{"id": "C144", "title": "A violation makes the place costlier for the shapes found there", "statement": "When a violation is met, every shape in the region that may be moved raises the wire cost counter by ten: a wire at its own nodes within a width of the violation and never further than six widths away, a patch at the nodes in its box and on the first line at or beyond its right and top sides. All these nodes and no others are remembered. Of every net with a via at the violation the node of one such via is remembered.", "quantifier": "all grids, violations, shapes at them, and counters that stay at most 255", "why_tests_cant": "Must hold for every position of the violation relative to wires and grid lines.", "anchors": ["src/dr/FlexDR_init.cpp: initMazeCost_marker_route_queue_addHistoryCost", "src/dr/FlexGridGraph.h: addMarkerCostPlanar, addMarkerCostVia"]}
{"id": "C145", "title": "Past violations are forgotten", "statement": "At every moment of the queue each node with a marker counter other than zero is remembered, and after enough nets without a violation (21 for wires, 7 for vias) every counter is zero again.", "quantifier": "all histories of violations and decays, starting from an empty memory", "why_tests_cant": "Depends on arbitrarily long histories; a node dropped from the memory too early keeps its cost forever.", "anchors": ["src/dr/FlexDR_init.cpp: route_queue_markerCostDecay, route_queue_addMarkerCost", "src/dr/FlexGridGraph.h: decayMarkerCostPlanar, decayMarkerCostVia"]}
{"id": "C146", "title": "The next search pays more where a violation was", "statement": "After a violation is recorded, an edge of the search that leads to a charged node costs at least one plus the marker cost times its length; so does a via up from the node remembered for a net, if it was not remembered already.", "quantifier": "all grids, violations, search costs, nodes and directions along the layer", "why_tests_cant": "Ties the counters to the price of every edge of every later search.", "anchors": ["src/dr/FlexDR_init.cpp: initMazeCost_marker_route_queue_addHistoryCost", "src/dr/FlexGridGraph_maze.cpp: getNextPathCost", "src/dr/FlexGridGraph.h: hasMarkerCost"]}
{"id": "C147", "title": "A net is guided by its own guides only", "statement": "When the worker follows guides, while a net is routed a step counts as inside the guides exactly if it leads to a node inside one of that net's guides, on its layer; after the net nothing is labelled.", "quantifier": "all grids, sets of guides (overlapping, outside the grid, between lines), nodes and directions", "why_tests_cant": "Depends on how arbitrary guides fall on arbitrary lines.", "anchors": ["src/dr/FlexDR_init.cpp: initMazeCost_guide_helper", "src/dr/FlexDR_maze.cpp: mazeNetInit, mazeNetEnd", "src/dr/FlexGridGraph.h: setGuide, hasGuide"]}
{"id": "C148", "title": "Terminals are tied to the GCells they reach", "statement": "Every rectangle of a terminal that reaches into the die is entered, on its layer, at exactly the GCells that meet it, except those that only touch its lower left corner, and, without tracks across the layers, those that only touch its left or lower side along the tracks. So every GCell whose inside it overlaps is entered, and no rectangle is lost.", "quantifier": "all GCell grids that fit the die, all terminals, orientations and rectangles", "why_tests_cant": "Depends on every position of a rectangle relative to GCell borders and the border of the die.", "anchors": ["src/io/io_guide.cpp: genGuides_gCell2TermMap, genGuides_gCell2PinMap", "src/db/obj/frBlock.h: getGCellIdx, getGCellBox"]}
{"id": "C149", "title": "Terminals are tied to the GCells of their access points", "statement": "In the process that goes by access points, a terminal of a component whose pins all have access points is entered at exactly the GCell and layer of one access point of each pin, the preferred one or else the first; if some pin has none, all GCells of its rectangles are entered too.", "quantifier": "all GCell grids that fit the die, components, pins and access points", "why_tests_cant": "Must hold for every mix of pins with and without access points.", "anchors": ["src/io/io_guide.cpp: genGuides_gCell2APInstTermMap, genGuides_gCell2APTermMap, genGuides_gCell2PinMap"]}
{"id": "C150", "title": "Guides around access points", "statement": "In that process guides are added that cover exactly the GCells at and beside that of each chosen access point of a component's terminal, as far as they are in the die, on its layer and the next two routing layers.", "quantifier": "all GCell grids that fit the die, terminals and access points, including those in GCells at the border", "why_tests_cant": "Depends on clamping of GCell numbers at every border.", "anchors": ["src/io/io_guide.cpp: genGuides_addCoverGuide"]}
{"id": "C151", "title": "The summary tells the truth", "statement": "At the end the total wire length printed is that of all wires, each routing layer has a line with the length of its wires, the number of vias is that of all vias, each cut layer has a line with its vias; the lengths of the layers add up to the total up to rounding.", "quantifier": "all routed designs whose sums fit 64 bits, all layer stacks", "why_tests_cant": "Sums over arbitrary designs.", "anchors": ["src/dr/FlexDR.cpp: FlexDR::end"]}
{"id": "C152", "title": "The report lists each violation", "statement": "The report has one entry for each violation, in order, so it is empty exactly if there are none. An entry names each source that is a net, pin or obstruction, and the layer (for a cut layer the one below). Coordinates are printed with six digits; if they have no more, the box of the violation can be read off exactly.", "quantifier": "all lists of violations, all coordinates and units", "why_tests_cant": "Must hold for every coordinate; samples are short numbers.", "anchors": ["src/dr/FlexDR.cpp: FlexDR::reportDRC"]}
{"id": "C153", "title": "LEF58 spacing of cuts with neighbours", "statement": "Under a LEF58 ADJACENTCUTS rule with a cut class, the violations found at a cut are exactly those with another cut closer than the spacing (for wide blockages the WITHIN), one of the two not fixed, when the cut has as many neighbours of the class within WITHIN as the rule says, or both have as many as TWOCUTS says. A cut of another class needs one neighbour more.", "quantifier": "all cut layers, classes, shapes, orders of query results and rules with sensible numbers", "why_tests_cant": "Counts over arbitrary neighbourhoods, independent of the order the search returns.", "anchors": ["src/gc/FlexGC_main.cpp: checkLef58CutSpacing_main, checkLef58CutSpacing_spc_adjCut, checkLef58CutSpacing_spc_hasTwoCuts, checkLef58CutSpacing_spc_hasAdjCuts"]}
{"id": "C154", "title": "LEF58 cut rules apply to cuts of all nets", "statement": "A LEF58 spacing rule that is not for one net is checked between cuts of any two nets. False of the code: if the layer has any LEF58 rule for cuts of one net, no LEF58 rule is checked between nets; proved for layers without such a rule. Rules with a second layer are checked only for corners.", "quantifier": "all cut layers, rules and shapes", "why_tests_cant": "Depends on the mix of rules on a layer.", "anchors": ["src/gc/FlexGC_main.cpp: checkCutSpacing_main, checkLef58CutSpacing_main, checkLef58CutSpacing_spc_layer"]}
{"id": "C155", "title": "Cuts keep their distance from corners of metal", "statement": "Under a LEF58 rule with CONCAVECORNER the violations found at a cut of the class are exactly those with concave corners of the metal over it closer than the spacing and on a line of the border of the metal rectangle; under NONEOLCONVEXCORNER exactly those where the cut comes into the triangle at a convex corner that is not at a line end.", "quantifier": "all outlines, cuts and rules, all orders of query results", "why_tests_cant": "Must hold for every outline and cut position.", "anchors": ["src/gc/FlexGC_main.cpp: checkLef58CutSpacing_spc_layer, checkLef58CutSpacing_main"]}
{"id": "C156", "title": "LEF58 cut rules and classes are read as written", "statement": "Every text of cut classes, and every text of ADJACENTCUTS and LAYER rules built from the grammar, is read to its end, and the rules it adds are, in order, the rules as written, for those kinds that are kept: an ADJACENTCUTS rule whose last clause is a known cut class, a LAYER rule without cut class or with a known class followed by a clause (ABOVEWIDTH with an ENCLOSURE). The others are dropped. A class name stands for its last definition. A TWOCUTSSPACING without a number is never read to its end.", "quantifier": "all sequences of rules with all their options, numbers and names", "why_tests_cant": "Unbounded texts with many optional clauses.", "anchors": ["src/io/io.cpp: getLef58CutClass, getLef58CutSpacing, getLef58CutSpacing_helper, getLef58CutSpacing_layer, getLef58CutSpacing_adjacentCuts", "src/db/tech/frLayer.h: addCutClass, getCutClassIdx"]}
{"id": "C157", "title": "Second layers of LEF58 cut rules", "statement": "After reading, each LEF58 cut rule that names a second layer carries its number, and the rules are otherwise unchanged and complete; the program reads through a null pointer exactly if some rule names a layer that does not exist.", "quantifier": "all technologies and lists of rules", "why_tests_cant": "Depends on names anywhere in the file.", "anchors": ["src/io/io_parser_helper.cpp: initConstraintLayerIdx", "src/db/tech/frLayer.h: addLef58CutSpacingConstraint"]}
{"id": "C158", "title": "Plain cut spacing rules are stored as written", "statement": "The SPACING rules of a cut layer without LAYER are all kept as written, those for one net separately. For each second layer that exists the first rule for any two nets is kept, together with the first for cuts of one net; later ones, those for unknown layers, and a rule for one net without one for any two nets are left out. Rules with sensible numbers meet the conditions of the cut checks.", "quantifier": "all lists of SPACING rules and layers, in any order", "why_tests_cant": "Depends on the order and mix of rules.", "anchors": ["src/io/io.cpp: getLefLayers", "src/db/tech/frLayer.h: addCutSpacingConstraint", "src/io/io_parser_helper.cpp: initConstraintLayerIdx"]}
{"id": "C159", "title": "Steps at line ends", "statement": "Under a LEF58_MINSTEP rule with NOBETWEENEOL, the checker reports exactly the line ends narrower than the given width, with the outline turning left before and after, both of whose sides are shorter than the step length, unless all three edges are fixed; the marker is the smallest rectangle around the three edges. Rules without NOBETWEENEOL report nothing.", "quantifier": "all outlines of polygons and all lists of rules", "why_tests_cant": "Must hold for every outline of any length, wherever the line end is in it.", "anchors": ["src/gc/FlexGC_main.cpp: checkMetalShape_lef58MinStep, checkMetalShape_lef58MinStep_noBetweenEol"]}
{"id": "C160", "title": "Holes that are too small", "statement": "The checker reports exactly the holes with less area than a MINENCLOSEDAREA statement without a WIDTH asks for, in metal of which some is routed; area is the number of unit squares inside of the hole, whatever its form and direction; the marker is the smallest rectangle around it. Statements with a WIDTH are never checked.", "quantifier": "all simple rectilinear holes, all metal and all statements", "why_tests_cant": "Area of polygons with any number of corners.", "anchors": ["src/gc/FlexGC_main.cpp: checkMetalShape_minEnclosedArea", "src/io/io.cpp: getLefLayers"]}
{"id": "C161", "title": "All shape rules on all polygons asked for", "statement": "A run of the shape checks ends, and reports exactly the broken rules on width, step, line ends, rectangles, grid and holes of every polygon of the net asked for, or of all nets, on the routing layers within the bounds of technology and worker. A polygon smaller than the minimum area of its layer is never reported for it.", "quantifier": "all databases of shapes with a grid of non-zero pitch", "why_tests_cant": "Ranges over all combinations of layers, nets, polygons and rules.", "anchors": ["src/gc/FlexGC_main.cpp: checkMetalShape, checkMetalShape_main"]}
{"id": "C162", "title": "Patches against steps", "statement": "Patches are made only inside local repairs of detailed routing in one technology. A minimum-step violation on layer 10 is patched iff a via of its net with lower metal there is near and its origin lies on one of the two lines through the middle of the marker; the patch belongs to the net of such a via and covers exactly the smallest rectangle around the marker and the origin of the via.", "quantifier": "all markers, all shapes, all orders of query results", "why_tests_cant": "Must hold for every result of the search.", "anchors": ["src/gc/FlexGC_main.cpp: patchMetalShape, patchMetalShape_helper, main"]}
{"id": "C163", "title": "Layers and their numbers", "statement": "After a LEF file is read, the layers of the technology are its routing and cut layers in order, after a default masterslice layer, and a default cut layer if the first is a routing layer. If routing and cut layers take turns in the file, routing layers have exactly the even numbers from 2 on and cut layers the odd ones. A name stands for the last layer of that name, and for none if no such layer was kept; the names of MASTERSLICE layers of the file are not known afterwards.", "quantifier": "all lists of layers in a LEF file", "why_tests_cant": "The rest of the program relies on parity of layer numbers for every file.", "anchors": ["src/io/io.cpp: getLefLayers, addDefaultMasterSliceLayer, addDefaultCutLayer", "src/db/tech/frTechObject.h: addLayer"]}
{"id": "C164", "title": "Widths and steps of a layer", "statement": "The minimum width of a routing layer is MINWIDTH where it is not above WIDTH, and WIDTH otherwise. Of several MINSTEP statements the last counts; if it has MAXEDGES, the checker reports exactly the runs of more than so many edges shorter than its length; if not, no step is ever reported on the layer.", "quantifier": "all lists of MINSTEP statements and all outlines", "why_tests_cant": "Combines the reader with the checker for all outlines.", "anchors": ["src/io/io.cpp: getLefLayers", "src/gc/FlexGC_main.cpp: checkMetalShape_minStep"]}
{"id": "C165", "title": "Spacing of a layer", "statement": "The last SPACINGTABLE of a layer decides, wherever SPACING statements stand; without one the last SPACING without conditions asks for its distance between any two shapes, whatever their width and run length; without both there is no minimum spacing. A table by width and run length asks for the entry of the last width and length below those of the shapes. Rows of a TWOWIDTHS table without PRL take the last one given, or minus the first spacing. All ENDOFLINE statements are kept in order; of SAMENET ones the last.", "quantifier": "all lists of SPACING and SPACINGTABLE statements, all widths and lengths", "why_tests_cant": "Must hold for every combination and order of statements.", "anchors": ["src/io/io.cpp: getLefLayers", "src/db/tech/frConstraint.h: frSpacingTablePrlConstraint, frSpacingTableTwConstraint"]}
{"id": "C166", "title": "LEF58_MINSTEP is read as written", "statement": "Each statement of a LEF58_MINSTEP text with MAXEDGES, MINADJACENTLENGTH and NOBETWEENEOL only is stored with its own values, in order; statements with other words are dropped.", "quantifier": "all texts of any number of statements", "why_tests_cant": "Ranges over texts of any length.", "anchors": ["src/io/io.cpp: getLef58MinStep"]}
{"id": "C167", "title": "LEF58_CORNERSPACING is read as written", "statement": "A CORNERSPACING rule with one spacing per row is stored with its kind, EXCEPTEOL, widths and spacings, and with growing tables the checker asks for the spacing of the last row narrower than the metal; with two rows or more and two spacings in each both tables are stored. With a single row a second spacing is lost.", "quantifier": "all texts of a rule, with any number of rows and all options", "why_tests_cant": "Ranges over tables of any length.", "anchors": ["src/io/io.cpp: getLef58CornerSpacing"]}
{"id": "C168", "title": "The command line", "statement": "With two or more words after the name of the program, the router starts exactly if they are legal options, each followed by a value, and it runs with the value of the last use of each option and the defaults of the others; the number of threads is the last value that begins with a number. If a word where an option is due is not legal, the program ends with code 2 and does not run. If the last word is a legal option without a value, it crashes. One word is taken for the name of a parameter file.", "quantifier": "all lists of words, all texts of parameter files", "why_tests_cant": "Ranges over command lines of any length.", "anchors": ["src/main.cpp: main"]}
{"id": "C169", "title": "The parameter file", "statement": "A parameter file is accepted exactly if it can be opened and at least five of its lines give a value to a parameter other than the verbosity. Every parameter has the text after the first colon of the last line for it, numbers as far as they go, or its default. Comments and lines with other names change nothing. For one process node seven settings are replaced whatever the file says; otherwise all are the user's.", "quantifier": "all texts of parameter files and all values", "why_tests_cant": "Ranges over files of any length and order of lines.", "anchors": ["src/main.cpp: readParams", "src/FlexRoute.cpp: init", "src/global.cpp"]}
{"id": "C170", "title": "The vias tried at a pin", "statement": "The vias tried for access to a pin from above are the first two, in the order of preference (default vias first, then by width, alignment and area of the metal), of the ranks that vias with one cut have. Of several vias of the same rank one is tried. If no two have the same rank, the choice does not depend on where the definitions lie in memory.", "quantifier": "all sets of vias of a layer and all orders of their addresses", "why_tests_cant": "The order of addresses differs between runs.", "anchors": ["src/pa/FlexPA_init.cpp: initViaRawPriority, getViaRawPriority", "src/pa/FlexPA_prep.cpp: prepPoint_pin_checkPoint_via"]}
{"id": "C171", "title": "Access points do not depend on the threads", "statement": "Rounds of the parallel loops never write the points of the same pin, so that for every schedule the access points of every pin of an instance are those found for the representative of its class, moved from the origin of the representative to that of the instance exactly once. Supply pins, and instances of cells that are neither core cells, blocks, pads nor rings, have none. Pins of the block's terminals with a net have the points found for them.", "quantifier": "all designs, all interleavings of the threads", "why_tests_cant": "Schedules cannot be enumerated by tests.", "anchors": ["src/pa/FlexPA_prep.cpp: prepPoint, revertAccessPoints, isSkipTerm", "src/pa/FlexPA_init.cpp: initPinAccess"]}
{"id": "C172", "title": "The counts of pin access are exact", "statement": "The numbers of access points and of pins without access points reported after pin access are exact in every execution.", "quantifier": "all numbers of threads and pins, all interleavings", "why_tests_cant": "A lost update needs a rare interleaving.", "anchors": ["src/pa/FlexPA_prep.cpp: prepPoint_pin, prepPoint_pin_updateStat"]}
{"id": "C173", "title": "The vias of the LEF file", "statement": "A VIA whose three LAYER statements, in any order, name three layers one above the other, the middle one with a shape, is stored with exactly its shapes on the layers it names, lower metal, cut and upper metal by the order of the layers, and with the cut class of its first rectangular cut that has one. A VIA that names a layer the technology lacks is left out; three known layers not one above the other end the program. What is stored is in the order of the file, and a name stands for the last via stored under it.", "quantifier": "all technologies, all lists of vias, all shapes", "why_tests_cant": "Ranges over files with any number of vias in any order.", "anchors": ["src/io/io.cpp: getLefVias", "src/db/tech/frTechObject.h: addVia", "src/db/tech/frViaDef.h"]}
{"id": "C174", "title": "Edges and corners of the checked metal", "statement": "For every outline of merged metal and every cut the rule checker makes one edge for each side and, for outlines with right angles, one corner for each vertex, linked once around in both directions; corners are convex exactly where the outline, with the metal on its left, turns left. An edge counts as fixed exactly when the fixed metal alone has the same edge, and a largest rectangle exactly when the fixed metal alone has it or it is a fixed cut.", "quantifier": "all outlines with any number of vertices and holes, all sets of fixed and routed shapes", "why_tests_cant": "Ranges over polygons of any size.", "anchors": ["src/gc/FlexGC_init.cpp: initNet_pins_polygonEdges, initNet_pins_polygonCorners, initNet_pins_maxRectangles", "src/db/gcObj/gcNet.h", "src/db/gcObj/gcShape.h"]}
{"id": "C175", "title": "Fixed corners", "statement": "A corner of the checked metal counts as fixed exactly when it is made by fixed shapes.", "quantifier": "all outlines, all sets of fixed and routed shapes", "why_tests_cant": "Ranges over polygons of any size.", "anchors": ["src/gc/FlexGC_init.cpp: initNet_pins_polygonCorners_helper", "src/gc/FlexGC_main.cpp: checkLef58CutSpacing_spc_layer"]}
{"id": "C176", "title": "The order of the nets in a region", "statement": "The nets of a region are queued each exactly once, those with fewer pins in the region first, then those with the smaller box around their pins, then by number; the order is determined by the design and does not depend on how the nets were listed. A shuffle with any source of random numbers keeps each net exactly once.", "quantifier": "all lists of nets, all pin boxes of less than 2^31 area, all random numbers", "why_tests_cant": "Ranges over regions with any number of nets.", "anchors": ["src/dr/FlexDR_maze.cpp: mazeIterInit_sortRerouteNets", "src/dr/FlexDR_init.cpp: route_queue_init_queue"]}
{"id": "C177", "title": "Detailed routing does not depend on the threads", "statement": "The routing, the marks and the numbers of violations at the end of detailed routing are the same for every number of threads, every assignment of the regions of a batch to threads and every order in which the steps of the threads follow each other: they are those of an execution of the regions one after the other. No order of steps leads to a state from which the loop cannot be finished.", "quantifier": "all designs, all numbers of threads, all schedules of the steps of the workers", "why_tests_cant": "Ranges over schedules; a test sees a few of them.", "anchors": ["src/dr/FlexDR.cpp: searchRepair", "src/dr/FlexDR.cpp: FlexDRWorker::main_mt"]}
{"id": "C178", "title": "Track assignment and the number of threads", "statement": "The places of the wires after a pass of track assignment are the same for every number of threads and every schedule of the threads.", "quantifier": "all designs, all numbers of threads, all schedules", "why_tests_cant": "Ranges over schedules; a test sees a few of them.", "anchors": ["src/ta/FlexTA.cpp: initTA_helper, FlexTAWorker::main_mt", "src/ta/FlexTA_end.cpp: saveToGuides"]}
{"id": "C179", "title": "The routes in the written file connect the pins", "statement": "After detailed routing with any routers, threads and schedules, the file that is written holds for each net exactly its wires and vias, and reading it back gives them. A net whose routes were changed and then checked is left with wires and vias that join every two pins the routes had reached, so that the routes in the file join them.", "quantifier": "all designs, all results of the region routers, all numbers of threads and schedules, all nets and pairs of pins", "why_tests_cant": "The clean-up after each iteration, the threads and the writer act one after the other on designs of any size; a test covers single nets of single runs.", "anchors": ["src/dr/FlexDR.cpp: main, searchRepair", "src/dr/FlexDR_conn.cpp: checkConnectivity", "src/io/io.cpp: writeFromDR", "src/io/defw.cpp: writeDef"]}
{"id": "C180", "title": "The written file does not depend on the threads", "statement": "Two executions of the whole program on the same input write the same file, whatever the numbers of their threads and the order in which the steps of the threads follow each other.", "quantifier": "all inputs, all numbers of threads, all schedules of pin access, track assignment and detailed routing", "why_tests_cant": "Ranges over all schedules of all parallel loops together.", "anchors": ["src/FlexRoute.cpp: main", "src/pa/FlexPA_prep.cpp: prepPoint, prepPattern", "src/ta/FlexTA.cpp: main, initTA_helper", "src/dr/FlexDR.cpp: main, searchRepair"]}
{"id": "C181", "title": "Regions that connect what they are given connect the net", "statement": "In the first iteration of detailed routing each region is given, of each net, the terminals inside it and the places where the wires of track assignment cross its border. If every region joins what it is given of a net, any two terminals of the net that hang together through the guides are joined, across all regions.", "quantifier": "all GCell grids, region sizes, guides, tracks inside their GCells, terminals with any number of places, and all ways in which the regions join their pins", "why_tests_cant": "A net is split over any number of regions by three separate steps (track assignment, crossing places, terminals per region); a test sees one net on one grid.", "anchors": ["src/dr/FlexDR_init.cpp: initNets_initDR, initNet, initNet_boundary, initNetObjs", "src/dr/FlexDR.cpp: initGCell2BoundaryPin, initDR_mergeBoundaryPin", "src/frRegionQuery.cpp: initGRPin, queryGRPin", "src/ta/FlexTA_init.cpp: initTracks, initIroutes", "src/ta/FlexTA_end.cpp: saveToGuides"]}
{"id": "C182", "title": "From the guide file to connected nets", "statement": "Take a design whose nets have the guides the program makes from the guide file. After track assignment, with every track inside its GCell, if every region of the first iteration of detailed routing joins the pins it is given of a net, all pins of the net are joined with each other.", "quantifier": "all guide files, pins, grids, panels and batches, tracks, region sizes, and all ways in which the regions join their pins", "why_tests_cant": "Composes merging, splitting and searching of guides, track assignment over panels and the split into regions for nets of any size; tests exercise the stages one by one on small nets.", "anchors": ["src/io/io_guide.cpp: genGuides, genGuides_final", "src/ta/FlexTA.cpp: main, initTA, searchRepair", "src/dr/FlexDR.cpp: initGCell2BoundaryPin, initDR_mergeBoundaryPin", "src/dr/FlexDR_init.cpp: initNets_initDR, initNet, initNet_boundary"]}
{"id": "C183", "title": "Components are written back unchanged", "statement": "The text written for a component of the reference DEF is read back by the DEF grammar as the same component: name, cell, nets, source, placement, generator, weight, EEQMASTER, region, mask shift and halos. No two different components get the same text. (True unless the component is covered, unplaced at a location, or has a region of coordinates, a foreign cell or a property; then the text is refused by the grammar.)", "quantifier": "all components with any combination of options that the DEF library can deliver", "why_tests_cant": "There are fifteen options with unbounded values and lists, and a test of the writer sees text, not whether every reader gets the same component back.", "anchors": ["src/io/defw.cpp: compf, orientStr", "module/def/5.8-p029/def/def.y: comp"]}
{"id": "C184", "title": "Sections of the written file are opened and closed", "statement": "If every section of the reference file has as many statements as its header says, and at least one, then in the written file each section has its header, its statements and exactly one END, in the same order. (A section without statements, one with another number in its header, and timing disables are written without or with too many ENDs; nets, special nets and pins are always closed.)", "quantifier": "all sequences of sections, numbers in headers and numbers of statements", "why_tests_cant": "The END is written by counting down in one global counter shared by all sections, so the outcome depends on the history of the whole file.", "anchors": ["src/io/defw.cpp: cs, endfunc, numObjs, compf, ndr, cls"]}
{"id": "C185", "title": "Tracks, rows and the GCell grid of the written file", "statement": "A track statement, row or GCell grid is written back with the same layers, masks, place and direction, and its numbers are the same if they have at most six digits before trailing zeros; otherwise they are off by at most five parts in a million. Writing a written track statement again changes nothing more.", "quantifier": "all track statements, rows and grids", "why_tests_cant": "The error appears only for coordinates of a million and more that do not end in zeros, i.e. for some tracks of large dies.", "anchors": ["src/io/defw.cpp: cls (defrTrackCbkType, defrRowCbkType, defrGcellGridCbkType)"]}
{"id": "C186", "title": "The die area of the written file", "statement": "The die area in the written file is the die area of the reference file. (True for rectangles; of a polygon only the first two corners are written, as if they were the corners of a box.)", "quantifier": "all die areas, with any number of corners", "why_tests_cant": "Tests have rectangular dies; the claim is about every polygon.", "anchors": ["src/io/defw.cpp: cls (defrDieAreaCbkType)", "module/def/5.8-p029/def/defiSite.cpp: defiBox::addPoint"]}
{"id": "C187", "title": "Nets are written back with the routes of the router", "statement": "The text written for a net is read back by the DEF grammar as the same net with the same connections in the same order, nondefault rule, shield nets, weight, source, use, \u2026, whose wires are exactly the routes that the router made; the wires that the reference file had are not written. (Capacitance, frequency and properties are written with six digits, XTALK and STYLE are lost; the text is refused by the grammar exactly if a connection is synthesized, there is a virtual pin, or a property is not a real number.)", "quantifier": "all nets with any options and connections, all results of routing", "why_tests_cant": "Sixteen options with unbounded values and lists of connections of any length; which of them break the file shows only when the file is read by another tool.", "anchors": ["src/io/defw.cpp: netNamef, netf, nondefRulef, subnetNamef", "module/def/5.8-p029/def/def.y: nets_section"]}
{"id": "C188", "title": "Special nets are written back", "statement": "The text written for a special net is read back by the DEF grammar as the same net: name, connections, wires with their widths, shapes, layers, points and vias, shield nets, source, pattern, weight, use. (True if no wire has a rectangle or a virtual point and the net has no via, polygon or rectangle of its own; rectangles and virtual points of wires and vias of the net are lost without notice, a polygon or rectangle of the net, a synthesized connection or a voltage of a thousand volts and more makes the text unreadable, frequencies, spacings and properties have six digits.)", "quantifier": "all special nets with any combination of options, wires and points that the DEF library can deliver", "why_tests_cant": "There are twenty options with unbounded lists of wires; a lost piece of the power grid shows only if every element of every wire is compared.", "anchors": ["src/io/defw.cpp: snetf", "module/def/5.8-p029/def/def.y: snets_section"]}
{"id": "C189", "title": "Pins of the design are written back", "statement": "The text written for a pin of the design is read back by the DEF grammar as the same pin: name, net, direction, use, rectangles with layer, mask and rule, ports and their placements, special. (The text is refused exactly if the pin has a polygon, a via beside rectangles, an antenna option, or a port with a rectangle; a placement of the pin that is written after a port without placement is read as the placement of that port; vias of a pin without rectangles are lost.)", "quantifier": "all pins with any options, shapes and numbers of ports", "why_tests_cant": "Shapes of pins are lists of any length in two places, and what a placement means depends on all that was written before it.", "anchors": ["src/io/defw.cpp: cls (defrPinCbkType)", "module/def/5.8-p029/def/def.y: pins_section", "module/def/5.8-p029/def/defiPinCap.cpp: defiPin::hasLayer"]}
{"id": "C190", "title": "A net is begun at its outermost pin and continued at the nearest one", "statement": "The router begins a net at a pin one of whose access points is farthest from the mean place of the pins. Before every further search it knows the smallest box around the access points of that pin and everything connected so far, and it aims at a pin that is not connected yet and has an access point at least as close to this box as any access point of any unconnected pin.", "quantifier": "all nets, grids, orders of the search frontier and numbers of searches done", "why_tests_cant": "The box is updated from the corners of each path only, while the connected nodes are all nodes of the path; that it stays the box of all of them is an invariant over all histories of searches.", "anchors": ["src/dr/FlexDR_maze.cpp: routeNet, routeNet_setSrc, routeNet_getNextDst", "src/dr/FlexGridGraph_maze.cpp: traceBackPath"]}
{"id": "C191", "title": "Vias of the design are written back", "statement": "The text written for a via of the design is read back by the DEF grammar as the same via: name, rectangles with layer and mask, polygons, and for a generated via its rule, cut size, layers, spacing, enclosure, rows and columns, origin, offset and cut pattern. (True exactly if the via has no polygon and no cut pattern: polygons are written without parentheses and refused, a cut pattern gets a pair of quotes that becomes part of it, one more each time the file is written.)", "quantifier": "all vias with any number of rectangles, polygons and any options of a rule", "why_tests_cant": "A via has unboundedly many shapes and nine optional parts, and a changed pattern shows only when the written file is read by another tool.", "anchors": ["src/io/defw.cpp: cls (defrViaCbkType)", "module/def/5.8-p029/def/def.y: via_section", "module/def/5.8-p029/def/defiVia.cpp: defiVia::hasRowCol"]}
{"id": "C192", "title": "Blockages are written back", "statement": "The text written for a blockage is read back by the DEF grammar as the same blockage: layer or placement, component, slots or fills, pushdown, exceptpgnet, mask, spacing or width, soft or partial, and all its shapes; different blockages have different texts. (True exactly if it has no polygon; a polygon is written without parentheses and refused.)", "quantifier": "all blockages on layers and of placement with any options and numbers of shapes", "why_tests_cant": "Options combine freely and lists of shapes have any length; a blockage that is lost lets another tool route where it must not.", "anchors": ["src/io/defw.cpp: cls (defrBlockageCbkType)", "module/def/5.8-p029/def/def.y: blockage_section", "module/def/5.8-p029/def/defiBlockage.cpp: defiBlockage::hasSpacing"]}
{"id": "C193", "title": "Nondefault rules and regions are written back", "statement": "The text written for a nondefault rule or a region is read back by the DEF grammar as the same: name, hard spacing, layers with width, diagonal width, spacing and extension, vias, via rules, minimum cuts; rectangles and type of the region. (True exactly if there is no property: a property is written with the name of its type, which the grammar has no place for.)", "quantifier": "all nondefault rules and regions with any numbers of layers, vias, cuts, rectangles and properties", "why_tests_cant": "Lists have any length and every layer has its own optional parts.", "anchors": ["src/io/defw.cpp: ndr", "src/io/defw.cpp: cls (defrRegionCbkType)", "module/def/5.8-p029/def/def.y: nondefaultrule_section, regions_section"]}
{"id": "C194", "title": "Fills and slots are written back", "statement": "The text written for a fill of metal or vias or a slot is read back by the DEF grammar as the same fill or slot. (False for every one of them: rectangles, polygons and points are written without parentheses, so the written file is refused as soon as the reference file has one fill or slot.)", "quantifier": "all fills and slots with any shapes", "why_tests_cant": "Only a claim about all shapes shows that no design with metal fill can be written so that it can be read.", "anchors": ["src/io/defw.cpp: cls (defrFillCbkType, defrSlotCbkType)", "module/def/5.8-p029/def/def.y: fill_section, slot_section"]}
{"id": "C195", "title": "The written file as a whole can be read", "statement": "The file written for a reference file with any statements and sections \u2014 names, units, die area, rows, tracks, GCell grids, vias, nondefault rules, regions, groups, components, pins, blockages, special nets and nets \u2014 is a DEF file with the same parts in the same order: the same sections with the same numbers in their headers, statements of the same names in the same order, each as it would be read on its own, the nets with the routes of the router. (True exactly if every section has as many statements as its header says, at least one unless it is a section of nets, special nets or pins, and every statement is one that is written as DEF; one statement that is not makes the whole file unreadable.)", "quantifier": "all sequences of statements and sections of any length, all routes, all values of the global counter before", "why_tests_cant": "A statement's text could be read differently in the file than alone, an end could be missing or come too early, and the counter that decides this is shared by all sections; no finite set of files shows it for every sequence.", "anchors": ["src/io/defw.cpp: writeDef, cs, endfunc", "module/def/5.8-p029/def/def.y: def_file, rules"]}
{"id": "C196", "title": "Property definitions of the reference file are definitions of the written file", "statement": "A property definition \u2014 object type, name, INTEGER or REAL with optional RANGE and default, STRING with optional text, NAMEMAPSTRING \u2014 is written as a definition that is read as the same one, so the properties of all later sections have the same types. (False of a NAMEMAPSTRING, written without its type and refused, of numbers of more than six digits, and of an empty text, which changes the type.)", "quantifier": "all property definitions of all object types, all ranges, defaults and texts, and all lists of definitions", "why_tests_cant": "Ranges, defaults and texts are unbounded, and types are looked up by name among any number of definitions; tests sample some.", "anchors": ["src/io/defw.cpp: prop", "module/def/5.8-p029/def/def.y: property_def", "module/def/5.8-p029/def/defiPropType.cpp: defiPropType::propType"]}
{"id": "C197", "title": "Groups of the reference file are groups of the written file", "statement": "A group with members, sizes, a region by name or by rectangles and properties is written as a group that is read as the same one. (True of groups with members and a region's name; sizes are lost, a property makes it unreadable, rectangles become names of members or make it unreadable.)", "quantifier": "all groups with any members, sizes, rectangles and properties", "why_tests_cant": "The members are arbitrary and the text of a rectangle is grammatical as names of members, so that no error shows; only a proof over all groups says exactly which survive.", "anchors": ["src/io/defw.cpp: cls", "module/def/5.8-p029/def/def.y: group_rule"]}
{"id": "C198", "title": "Names have the same meaning in the written file", "statement": "If names are case sensitive in the reference file, they are in the written file, which says version 5.8; if they are not (version before 5.6, NAMESCASESENSITIVE OFF), the written file keeps that. (False in the second case: the version is raised, the old statement is kept, and the written file is refused.)", "quantifier": "all combinations of version and case statement, present or absent", "why_tests_cant": "Two statements that are each correct contradict one another only in a combination; the statement covers all versions.", "anchors": ["src/io/defw.cpp: versStr, casesens", "module/def/5.8-p029/def/def.y: version_stmt, case_sens_stmt"]}
{"id": "C199", "title": "The complete written file is a DEF file with the types of properties unchanged", "statement": "For a complete reference file \u2014 version and case statements, names, units, property definitions anywhere between the other parts, and all parts of C195 \u2014 the written file is read as the same items in the same order, each property with the type that the definitions before it give. (True exactly if names are case sensitive, no definition is a name map string and every part is written as DEF; else the whole file is refused.)", "quantifier": "all complete files: any number of definitions sections between any parts, all routes, all values of the global counter before", "why_tests_cant": "Whether a property is readable depends on definitions arbitrarily far before it, and whether a part is depends on all before it being closed; only induction over the whole file shows that this fits together.", "anchors": ["src/io/defw.cpp: writeDef, propstart, propend, done", "module/def/5.8-p029/def/def.y: def_file, prop_def_section", "module/def/5.8-p029/def/defiPropType.cpp: defiPropType::propType"]}
{"id": "C200", "title": "A via rule of the technology is stored as it is written, or the program ends", "statement": "A VIARULE GENERATE for a metal, the cut layer above it and the next metal is stored with the enclosures of both metals and the rectangle and spacing of the cuts, whatever the order of its LAYER statements; a rule with a layer that the technology does not have is left out, and every other rule \u2014 not three layers, layers not one above the other, no GENERATE \u2014 ends the program. (The layers that a rule is for are not stored; a rule with the same layer twice can be accepted.)", "quantifier": "all via rules: any layers in any order, any enclosures, rectangles, spacings, present or absent", "why_tests_cant": "Six orders times the presence of each statement for each layer, and any numbers; tests sample a few.", "anchors": ["src/io/io.cpp: Parser::Callbacks::getLefViaRules", "src/db/tech/frViaRuleGenerate.h: frViaRuleGenerate"]}
{"id": "C201", "title": "The complete file that is written after detailed routing can be read, and its nets carry the router's wires, which join their pins", "statement": "After detailed routing by any number of threads in any order, ended without an error exit, the complete file that is written over a reference file (of the kind C199 says is echoed as DEF) is read by a DEF reader; it holds the nets of the reference file in the same order with the same pins; a net the router does not know has no routes; every other net is read with exactly the wires it has at the end of the run, and, if detailed routing changed it, these wires and vias join every two pins of the net that routes reached at its last connectivity check.", "quantifier": "all designs, routers, schedules, numbers of threads, reference files with any sections, statements, property definitions and net names", "why_tests_cant": "Schedules, routes and reference files are unbounded; the property spans routing, threads, the connectivity check, the writer and the reader.", "anchors": ["src/dr/FlexDR.cpp: FlexDR::main", "src/io/defw.cpp: Writer::writeDef", "src/io/io.cpp: Writer::fillConnFigs", "src/dr/FlexDR_conn.cpp: FlexDRConnectivityChecker::check"]}
{"id": "C202", "title": "Lengths and areas of the technology are put into database units", "statement": "The numbers of LEF \u2014 grid, widths, pitches, minimum areas, minimum steps, cut spacings, rectangles, sizes of cells \u2014 that follow a UNITS statement are stored, in order, within half a unit of the exact value (minimum steps are cut off and never made larger), and exactly if the value is a whole number of units; the pins of a placed cell are then at their exact place. (This fails: without UNITS every number becomes zero; if DEF has other units than LEF, every coordinate that is not zero is wrong, without an error; the AREA of a cut spacing is scaled as a length.)", "quantifier": "all LEF files as sequences of statements, all numbers, all units, all placements", "why_tests_cant": "Any number and any scale; tests use a few technologies, with the units of LEF and DEF the same.", "anchors": ["src/io/io.cpp: getLefUnits, getLefManufacturingGrid, getLefLayers, getLefMacros, getLefPins, getDefUnits", "src/db/tech/frTechObject.h: frTechObject"]}
{"id": "C203", "title": "What is found in a region under routing are the routes it has then", "statement": "After any history of ripping up nets and giving them wires, vias and patches in a region, asking for a box of a layer gives an object if and only if some net has the object at that time, inside or outside the region, and its metal or cut on the layer has a point in the box; each of its boxes is found as often as it has it, and no route that was deleted is ever found.", "quantifier": "all nets of a region, all histories of rip-ups and new routes, all boxes and layers", "why_tests_cant": "The structure is changed object by object over a whole run of rip-ups; one entry too many is a pointer to a deleted object and shows only much later.", "anchors": ["src/dr/FlexDR_rq.cpp: FlexDRWorkerRegionQuery::add, remove, query, init", "src/dr/FlexDR_maze.cpp: route_queue_main", "src/db/drObj/drNet.h: drNet::clear, addRoute", "src/db/drObj/drShape.h: getBBox"]}
{"id": "C204", "title": "What the violation checker finds while a region is routed", "statement": "After any history of reroutings, checks and patches in a region, every entry of the search structures of the violation checker is an edge or rectangle that it has at that time, and every one it has is there once, so nothing deleted is ever found. After every rerouting or check of an entry of the queue and at the final check, asking for the edges or the rectangles in a box of a layer gives, with their nets, exactly what a checker newly made for the present routes would give; the exception, for one process node, are patches made in an initial check.", "quantifier": "all fixed shapes and nets, all histories of reroutings, checks and patches, all boxes and layers, all ways of making edges and rectangles from metal, all addresses of objects", "why_tests_cant": "Objects are deleted and made anew at each rerouting; a stale entry is a pointer to freed memory, and a missing one a violation that is never seen.", "anchors": ["src/gc/FlexGC_rq.cpp: addToRegionQuery, removeFromRegionQuery, init, queryPolygonEdge, queryMaxRectangle", "src/gc/FlexGC_init.cpp: updateGCWorker, initNet, initNets", "src/db/gcObj/gcNet.h: clear, addPin"]}
{"id": "C205", "title": "Which tracks decide that instances of a cell share access points", "statement": "For every cell of the design the layers by whose tracks its instances are compared are found, and they are those from the lowest shape of a signal pin to the routing layer above the highest one; a cell without signal pins is compared by none. Instances that share their access points therefore see the same tracks on both layers whose tracks gave the access points of a pin. (The last fails for pins on the highest routing layer: their access points are taken from the tracks of the layer below, by which instances are not compared.)", "quantifier": "all cells with any terminals and shapes, all numbers of layers, all track patterns, all pairs of instances", "why_tests_cant": "Any combination of pin layers, tracks and places; the failure needs a cell whose pins are all on the highest layer.", "anchors": ["src/pa/FlexPA_init.cpp: initUniqueInstance_refBlock2PinLayerRange, initUniqueInstance_main", "src/pa/FlexPA_prep.cpp: isSkipTerm, prepPoint_pin_genPoints_rect"]}
{"id": "C206", "title": "What a wire or via tried at a pin is compared with", "statement": "When pin access tries a wire or a via at a pin, the check compares it with the shapes of the pin's own instance, or at a pin of the block with those of the pin, with nothing else of the design, and treats the candidate and the shapes of that pin as one net. Vias of several pins tried together are compared with one another only. (The treatment as one net fails for vias at pins of the block: the via is entered as belonging to the pin, the shapes of the pin as belonging to its net, so that every via whose metal overlaps its own pin is refused as a short.)", "quantifier": "all instances, pins, nets, obstructions and candidates, all contents of the design around them, all orders of the check", "why_tests_cant": "Any surroundings and any candidate; the failure concerns which two shapes count as one net and shows only as a missing via access.", "anchors": ["src/gc/FlexGC_init.cpp: initDesign_skipObj, initDesign, addPAObj, initPA0", "src/pa/FlexPA_prep.cpp: prepPoint_pin_checkPoint_planar, prepPoint_pin_checkPoint_via_helper, genPatterns_gc"]}
{"id": "C207", "title": "Objects are not confused by the numbers they are told apart by", "statement": "Nearly all sets and maps of the program compare objects by a number only. Whatever library and design are read to the end, two different cells, instances, nets, obstructions or terminals, where terminals of the design and of its instances count together, have different numbers, which follow the order of the files; no cell has the number of the design. Hence a set filled in any order with such objects holds each of them once and is gone through in the order of the files, never by address. The pins of all nets of a routing region, and the wires of a track assignment panel inside and outside of it, have different numbers too. Every component gets one terminal per pin and one obstruction per obstruction of the last cell of its name. The files are read to the end just if every component names a known cell, no two have one name and no pin has several ports.", "quantifier": "all libraries, all designs with statements in any order, all orders of insertion, all numbers of nets and pins of a region", "why_tests_cant": "The numbers come from counters shared by several kinds of objects and restarted at every library cell; a collision would show only as an object silently missing from a set in some design.", "anchors": ["src/db/obj/frBlockObject.h: frBlockObjectComp", "src/io/io.cpp: getDefComponents, getDefTerminals, getDefNets, getDefBlockages, getLefString, getLefPins, getLefObs, addFakeNets", "src/frDesign.h: addRefBlock", "src/dr/FlexDR_init.cpp: initNet, initNet_term_new, initNet_boundary", "src/ta/FlexTA.h: addIroute"]}
{"id": "C208", "title": "Rules built in for one process stay in their place", "statement": "The lengths that are forbidden between two vias are those of the rules of the technology in every process but one, and there on every layer but one. Where the additions of this process apply, they only forbid further lengths, namely all those at which the cut of one of the two vias is closer to the end of the shorter metal than a rule for concave corners asks for, and no others. A wire is kept from running through a via only if layer and via are the built in ones, in both directions.", "quantifier": "all technologies, processes, layers, vias, rules and lengths", "why_tests_cant": "Any sizes and spacings; a wrong length shows only as a violation, or a lost path, in that process.", "anchors": ["src/rp/FlexRP_prep.cpp: prep_via2viaForbiddenLen_helper, prep_via2viaForbiddenLen_lef58CutSpc, prep_via2viaForbiddenLen_lef58CutSpc_helper, prep_viaForbiddenThrough", "src/db/tech/frTechObject.h: isVia2ViaForbiddenLen, isViaForbiddenThrough"]}
{"id": "C209", "title": "The analysis of instances after reading", "statement": "After a design is read, the number of different instances is reported: the least number of instances to one of which every instance is alike, that is of the same cell and orientation and at the same position relative to all tracks that matter to the pins of the cell. The program divides by zero there just if such a pattern of tracks has a step of 0, and otherwise goes on.", "quantifier": "all technologies, cells, patterns of tracks and lists of instances", "why_tests_cant": "Any number of patterns, layers and instances; one pattern of a single track, written with a step of 0, ends the run.", "anchors": ["src/io/io_pin.cpp: instAnalysis"]}
{"id": "C210", "title": "Track patterns need a step once guides are read", "statement": "When guides are read and the grid of GCells is made, the program goes on just if the grid is made without regard to tracks and, unless the grid has no GCell, every pattern of tracks that runs along its routing layer has a step other than 0 and the number of layers is odd. After that, the track coordinates of a routing layer in any window are exactly those of the tracks of its patterns that lie there.", "quantifier": "all technologies, dies, guides, patterns of tracks and windows", "why_tests_cant": "Any number of layers, patterns and GCells; a pattern of a single track written with a step of 0 ends the run in a loop whose result is not used.", "anchors": ["src/io/io_parser_helper.cpp: buildGCellPatterns", "src/dr/FlexGridGraph.cpp: initTracks", "src/ta/FlexTA_init.cpp: initTracks"]}
