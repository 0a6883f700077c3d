{"id": "C01", "title": "One object per id", "statement": "After any sequence of object additions, removals and alias changes, looking an id up returns the one object registered under it and not removed since, and nothing if there is none; an addition under an id or alias already in use is refused and changes nothing.", "quantifier": "every finite sequence of add / remove / addAlias / removeAlias calls on a network, with arbitrary ids and aliases", "why_tests_cant": "the space of histories is unbounded; collisions between ids and aliases only show up for particular orders of calls", "anchors": ["src/iidm/NetworkIndex.cpp: NetworkIndex::checkId, remove, addAlias, removeAlias, getId", "include/powsybl/iidm/NetworkIndex.hxx: checkAndAdd, find", "include/powsybl/iidm/IdentifiableAdder.hxx: checkAndGetUniqueId"]}
{"id": "C02", "title": "Aliases resolve to their owner and die with it", "statement": "An alias always resolves to the object it was added to, adding an alias that is already an id or an alias is refused without effect, and removing an object frees its id and all of its aliases for reuse.", "quantifier": "every sequence of calls and every alias", "why_tests_cant": "alias tables are shared by all objects; leaks depend on the order of removals over an unbounded history", "anchors": ["src/iidm/NetworkIndex.cpp: addAlias, remove, removeAlias", "src/iidm/Identifiable.cpp: addAlias, removeAlias, getAliases, getAliasType"]}
{"id": "C03", "title": "Generated ids are always fresh", "statement": "With ensureIdUnicity, the id given to a new object is never one already in use, equals the requested id when that is free, and otherwise is the requested id followed by the smallest free '#n' suffix.", "quantifier": "every set of ids in use and every requested id (including the empty one)", "why_tests_cant": "the suffix search runs over an unbounded set of existing ids", "anchors": ["src/iidm/util/Identifiables.cpp: getUniqueId", "include/powsybl/iidm/IdentifiableAdder.hxx: checkAndGetUniqueId"]}
{"id": "C04", "title": "Per-type listings agree with id lookup", "statement": "Listing the objects of a type yields exactly the registered, not-removed objects of that exact type, each once, in registration order, for every history.", "quantifier": "every history of additions and removals", "why_tests_cant": "two containers are updated in lockstep; a missed update shows only after particular histories", "anchors": ["include/powsybl/iidm/NetworkIndex.hxx: checkAndAdd, getAll", "src/iidm/NetworkIndex.cpp: remove"]}
{"id": "C05", "title": "Variant bookkeeping stays consistent", "statement": "After any history of clone / remove / select operations, variant ids map one-to-one to storage slots, every multi-variant attribute has one value per slot, free slots are tracked exactly and the initial variant is always there.", "quantifier": "every finite history of variant operations, including failing ones that the caller handles", "why_tests_cant": "slot reuse and shrinking of the arrays depends on the whole history of clones and removals", "anchors": ["src/iidm/VariantManager.cpp: cloneVariant, removeVariant, getVariantIndex, setWorkingVariant", "src/iidm/NetworkVariant.cpp", "include/powsybl/iidm/VariantManager.hpp"]}
{"id": "C06", "title": "Variants are isolated", "statement": "Writing a multi-variant attribute while one variant is selected never changes the value read in any other variant.", "quantifier": "every pair of distinct variants, every history of clones, removals, writes and reads", "why_tests_cant": "a sharing bug needs a particular slot-reuse pattern to show", "anchors": ["src/iidm/VariantManager.cpp", "src/iidm/Terminal.cpp: setP, setQ", "include/powsybl/iidm/MultiVariantObject.hpp"]}
{"id": "C07", "title": "A clone is a snapshot of its source", "statement": "Right after cloning, every attribute read in a target variant equals the value in the source variant at the time of the call, for fresh, reused and overwritten targets, and it does not follow later changes of the source.", "quantifier": "every history before the clone, every list of targets, every later history", "why_tests_cant": "the clone goes through three different code paths (extend, reuse, overwrite) chosen by history", "anchors": ["src/iidm/VariantManager.cpp: cloneVariant", "src/iidm/Network.cpp: extendVariantArraySize, allocateVariantArrayElement"]}
{"id": "C08", "title": "Removing a variant leaves the others untouched", "statement": "Removing a variant makes only that id unknown: all remaining variants keep their values, the initial variant cannot be removed, and a thread whose selected variant was removed has no selected variant afterwards.", "quantifier": "every history of variant operations and every removed variant", "why_tests_cant": "array compaction after removal depends on which slots happen to be last", "anchors": ["src/iidm/VariantManager.cpp: removeVariant", "src/iidm/MultipleVariantContext.cpp", "src/iidm/ThreadLocalMultipleVariantContext.cpp"]}
{"id": "C09", "title": "A failed clone changes nothing", "statement": "If cloning throws (unknown source, target already there without overwrite, empty target list), the network and the variant table are as before the call.", "quantifier": "every state and every target list", "why_tests_cant": "partial effects need a failing element after succeeding ones in a list of arbitrary length", "anchors": ["src/iidm/VariantManager.cpp: cloneVariant"]}
{"id": "C10", "title": "Thread-local variant selection", "statement": "When multi-threaded variant access is on, the variant selected by one thread is never changed by another thread's selection, and each thread reads and writes only its own selected variant, for every interleaving.", "quantifier": "every number of threads and every interleaving of their selections, reads and writes", "why_tests_cant": "interleavings cannot be enumerated by tests", "anchors": ["src/iidm/ThreadLocalMultipleVariantContext.cpp", "src/iidm/MultipleVariantContext.cpp", "src/iidm/VariantManager.cpp: allowVariantMultiThreadAccess"]}
{"id": "C11", "title": "Visiting every variant", "statement": "forEachVariant runs the body once per existing variant with that variant selected and restores the caller's selection afterwards, also when the body throws.", "quantifier": "every set of variants, every body (including throwing ones) and every initial selection", "why_tests_cant": "the guard must hold for every exit point of an arbitrary body", "anchors": ["src/iidm/VariantManager.cpp: forEachVariant", "src/iidm/VariantContextGuard.cpp"]}
{"id": "C12", "title": "Graph indices stay valid", "statement": "Through any sequence of vertex and edge additions and removals, a new vertex or edge never receives the index of a live one, existing ones keep their index, end points and objects, and the reported counts equal the number of live elements.", "quantifier": "every finite sequence of graph operations", "why_tests_cant": "index recycling depends on the whole history", "anchors": ["include/powsybl/math/UndirectedGraph.hxx: addVertex, addVertexIfNotPresent, addEdge, removeVertex, removeEdge, cleanVertices, getVertexCount, getEdgeCount"]}
{"id": "C13", "title": "Adjacency is never stale", "statement": "Whatever operations were performed and whenever adjacency was last computed, the edges examined at a vertex are exactly the live edges that touch it.", "quantifier": "every sequence of mutations interleaved with traversals", "why_tests_cant": "the adjacency list is cached and validity is decided by comparing sizes only", "anchors": ["include/powsybl/math/UndirectedGraph.hxx: getAdjacencyList, invalidateAdjacencyList"]}
{"id": "C14", "title": "Graph removal guards", "statement": "Removing a vertex that still has an edge is refused without effect; removing all vertices is refused exactly when an edge remains; removed vertices never leave an edge dangling.", "quantifier": "every graph reachable by a sequence of operations", "why_tests_cant": "the guards look at different data than the counts, so they can disagree only after particular histories", "anchors": ["include/powsybl/math/UndirectedGraph.hxx: removeVertex, removeAllVertices, removeEdge, removeAllEdges, removeIsolatedVertices"]}
{"id": "C15", "title": "Traversal reaches exactly the connected vertices", "statement": "A traversal from a vertex terminates and visits exactly the vertices reachable through edges its callback accepts, each once; each edge accepted by the callback is used between its own two end points.", "quantifier": "every graph, start vertex and callback, including self loops and parallel edges", "why_tests_cant": "graphs and callbacks are unbounded; cycles, self loops and stop results combine in unbounded ways", "anchors": ["include/powsybl/math/UndirectedGraph.hxx: traverse"]}
{"id": "C16", "title": "Path search is sound, complete and shortest first", "statement": "The path search returns exactly the paths without repeated vertex that start at the given vertex, use no cancelled edge and stop at the first accepted vertex, each exactly once, ordered by number of edges.", "quantifier": "every graph, start vertex, acceptance and cancellation predicate", "why_tests_cant": "the number of paths is exponential; completeness is a statement about all of them", "anchors": ["include/powsybl/math/UndirectedGraph.hxx: findAllPaths"]}
{"id": "C17", "title": "Component numbering", "statement": "Two vertices get the same component number exactly when they are connected, numbers are 0..n-1 without gap, sizes are exact and decreasing, so component 0 is a largest one.", "quantifier": "every adjacency list", "why_tests_cant": "needs all graphs; ties and isolated vertices are easy to miss", "anchors": ["src/math/GraphUtil.cpp: computeConnectedComponents", "include/powsybl/math/GraphUtil.hpp"]}
{"id": "C18", "title": "Node/breaker buses are the electrical classes", "statement": "In a node/breaker voltage level two equipment nodes are on the same bus of a view exactly when they are linked by closed switches (not retained, for the bus/breaker view) and internal connections, and the class qualifies as a bus; every node is on at most one bus.", "quantifier": "every node/breaker topology, switch state, and both views", "why_tests_cant": "topologies are unbounded", "anchors": ["src/iidm/NodeBreakerVoltageLevelTopology.cpp: CalculatedBusTopology::updateCache, traverse, isBusValid", "src/iidm/NodeBreakerVoltageLevel.cpp"]}
{"id": "C19", "title": "Bus ids are unique and stable", "statement": "Within a voltage level two different calculated buses never share an id, and recomputing on an unchanged topology gives back the same ids for the same sets of equipment.", "quantifier": "every topology and every recomputation", "why_tests_cant": "ids are generated from traversal order", "anchors": ["src/iidm/NodeBreakerVoltageLevelBusNamingStrategy.cpp", "src/iidm/BusBreakerVoltageLevelTopology.cpp: createMergedBus"]}
{"id": "C20", "title": "Calculated buses are never stale (node/breaker)", "statement": "After any change that affects connectivity (switch opened, closed, retained, added, removed, internal connection, terminal attached or detached), bus queries reflect the current topology in the variant in which they are made.", "quantifier": "every interleaving of changes and queries in every variant", "why_tests_cant": "a missed invalidation only shows when a query precedes the change", "anchors": ["src/iidm/NodeBreakerVoltageLevel.cpp: addSwitch, addInternalConnection, removeSwitch, attach, detach, connect, disconnect, invalidateCache", "src/iidm/NodeBreakerVoltageLevelTopology.cpp: invalidateCache"]}
{"id": "C21", "title": "Connecting a terminal", "statement": "Terminal connection in a node/breaker voltage level returns true only if some switch was closed and afterwards the terminal reaches a busbar section through closed switches; it never opens a switch, only closes breakers that were open, never passes an open disconnector, and changes nothing when it returns false.", "quantifier": "every topology and switch state", "why_tests_cant": "the path chosen depends on the whole graph", "anchors": ["src/iidm/NodeBreakerVoltageLevel.cpp: connect", "include/powsybl/math/UndirectedGraph.hxx: findAllPaths"]}
{"id": "C22", "title": "Disconnecting a terminal", "statement": "When disconnection in a node/breaker voltage level returns true the terminal no longer reaches any busbar section through closed switches; it only opens closed breakers; when it returns false nothing changed.", "quantifier": "every topology and switch state", "why_tests_cant": "needs every path to be cut, the number of paths is exponential", "anchors": ["src/iidm/NodeBreakerVoltageLevel.cpp: disconnect", "include/powsybl/math/UndirectedGraph.hxx: findAllPaths"]}
{"id": "C23", "title": "Bus/breaker merged buses are the electrical classes", "statement": "In a bus/breaker voltage level two configured buses belong to the same merged bus exactly when closed switches link them and the class has the required equipment; each configured bus belongs to at most one merged bus and merged buses have distinct ids.", "quantifier": "every set of configured buses and switches, including histories that removed buses", "why_tests_cant": "topologies are unbounded and removals leave holes in the vertex numbering", "anchors": ["src/iidm/BusBreakerVoltageLevelTopology.cpp: updateCache, isBusValid, createMergedBus"]}
{"id": "C24", "title": "Calculated buses are never stale (bus/breaker)", "statement": "After any change that affects connectivity of a bus/breaker voltage level, merged bus queries reflect the current topology.", "quantifier": "every interleaving of changes and queries in every variant", "why_tests_cant": "a missed invalidation only shows when a query precedes the change", "anchors": ["src/iidm/BusBreakerVoltageLevel.cpp: addBus, addSwitch, removeBus, removeSwitch, connect, disconnect, attach, detach", "src/iidm/BusBreakerVoltageLevelTopology.cpp: invalidateCache"]}
{"id": "C25", "title": "A terminal is listed exactly once, on its bus", "statement": "In every variant a terminal of a bus/breaker voltage level is in the terminal list of its connectable bus and of no other bus, whatever the history of attach, detach, re-attachment and variant operations.", "quantifier": "every history over any number of variants", "why_tests_cant": "the per-bus lists and the terminal's own bus id are separate per-variant structures", "anchors": ["src/iidm/BusTerminalViews.cpp: setConnectableBus", "src/iidm/BusBreakerVoltageLevel.cpp: attach, detach", "src/iidm/ConfiguredBus.cpp: addTerminal, removeTerminal"]}
{"id": "C26", "title": "At most one equipment per node", "statement": "In a node/breaker voltage level a node never carries two terminals; attaching to an occupied node is refused without effect; detaching frees exactly that node.", "quantifier": "every history of attachments and detachments", "why_tests_cant": "depends on an unbounded history", "anchors": ["src/iidm/NodeBreakerVoltageLevel.cpp: attach, detach, checkTerminal"]}
{"id": "C27", "title": "Removing a voltage level", "statement": "Removing a voltage level is refused, with nothing changed, when a branch, transformer, three-windings transformer or HVDC converter station in use is connected to it; when it succeeds none of its objects can be found any more and no other object is lost.", "quantifier": "every network", "why_tests_cant": "needs all combinations of connected equipment", "anchors": ["src/iidm/VoltageLevel.cpp: remove", "src/iidm/util/VoltageLevels.cpp: checkRemovability", "src/iidm/util/Substations.cpp: checkRemovability", "src/iidm/Substation.cpp: remove"]}
{"id": "C28", "title": "HVDC stations know their line", "statement": "A converter station is linked to a line exactly when that line has it as an end; a station in use cannot be removed.", "quantifier": "every history of HVDC line and station additions and removals", "why_tests_cant": "two-way links kept by separate calls over an unbounded history", "anchors": ["src/iidm/HvdcLine.cpp: attach, remove", "src/iidm/HvdcLineAdder.cpp: add", "src/iidm/HvdcConverterStation.cpp: remove, setHvdcLine"]}
{"id": "C29", "title": "Adding equipment is all or nothing", "statement": "If adding an equipment throws (invalid value, unknown bus, occupied node, duplicate id) the network is unchanged; in particular every equipment found in the network has its terminals attached.", "quantifier": "every network state and every argument of the adders", "why_tests_cant": "the failure points are inside the add call and the leftovers are visible only through other calls", "anchors": ["src/iidm/LoadAdder.cpp: add", "src/iidm/BatteryAdder.cpp: add", "src/iidm/DanglingLineAdder.cpp: add", "src/iidm/GeneratorAdder.cpp: add", "src/iidm/LineAdder.cpp: add", "src/iidm/TwoWindingsTransformerAdder.cpp: add"]}
{"id": "C30", "title": "Tap positions stay on the tap range", "statement": "In every variant the tap position of a tap changer lies between its lowest and highest tap, so reading the current step never fails, whatever the sequence of setTapPosition, setLowTapPosition, variant clones and selections.", "quantifier": "every history of calls over any number of variants", "why_tests_cant": "needs an unbounded history over several variants", "anchors": ["include/powsybl/iidm/TapChanger.hxx: setTapPosition, setLowTapPosition, getCurrentStep, getStep"]}
{"id": "C31", "title": "A regulating ratio tap changer is well configured", "statement": "Whenever a ratio tap changer with on-load capability is regulating in some variant, it has a positive target voltage, a regulation terminal and a non-negative or unset deadband in that variant.", "quantifier": "every history of setter calls, including failing ones, over any number of variants", "why_tests_cant": "each setter validates a different mix of old and new values", "anchors": ["src/iidm/RatioTapChanger.cpp: setRegulating, setTargetV, setLoadTapChangingCapabilities", "src/iidm/ValidationUtils.cpp: checkRatioTapChangerRegulation", "include/powsybl/iidm/TapChanger.hxx: setRegulating, setTargetDeadband, setRegulationTerminal"]}
{"id": "C32", "title": "A regulating phase tap changer is well configured", "statement": "Whenever a phase tap changer is regulating in some variant its mode is not FIXED_TAP, it has a regulation value and a regulation terminal in that network.", "quantifier": "every history of setter calls over any number of variants", "why_tests_cant": "each setter validates a different mix of old and new values", "anchors": ["src/iidm/PhaseTapChanger.cpp: setRegulationMode, setRegulationValue, setRegulationTerminal", "src/iidm/ValidationUtils.cpp: checkPhaseTapChangerRegulation"]}
{"id": "C33", "title": "At most one regulating tap changer per transformer", "statement": "In every variant at most one tap changer of a transformer is regulating.", "quantifier": "every history of adder and setter calls", "why_tests_cant": "the check is made by the adders only, setters come later", "anchors": ["src/iidm/ValidationUtils.cpp: checkOnlyOneTapChangerRegulatingEnabled", "src/iidm/RatioTapChangerAdder.cpp: add", "src/iidm/PhaseTapChangerAdder.cpp: add", "include/powsybl/iidm/TapChanger.hxx: setRegulating"]}
{"id": "C34", "title": "Voltage / reactive control set-points are always usable", "statement": "In every variant a generator, converter station or static VAR compensator that controls voltage has a positive voltage set-point, and one that controls reactive power has a reactive set-point, after any history of accepted setter calls.", "quantifier": "every history of setter calls and variant operations", "why_tests_cant": "each setter validates its argument against stored values of the selected variant", "anchors": ["src/iidm/Generator.cpp: setVoltageRegulatorOn, setTargetV, setTargetQ", "src/iidm/VscConverterStation.cpp", "src/iidm/StaticVarCompensator.cpp: setRegulationMode, setVoltageSetpoint, setReactivePowerSetpoint", "src/iidm/ValidationUtils.cpp: checkVoltageControl, checkSvcRegulator"]}
{"id": "C35", "title": "Power ranges are never inverted", "statement": "After construction and any history of accepted setter calls, minP <= maxP for generators, batteries and generating dangling lines, low <= high for voltage limits, and a rejected call leaves the values untouched.", "quantifier": "every history of setter calls with every value, NaN included", "why_tests_cant": "NaN comparisons make pairwise validation order dependent", "anchors": ["src/iidm/Generator.cpp: setMinP, setMaxP", "src/iidm/Battery.cpp", "src/iidm/VoltageLevel.cpp: setHighVoltageLimit, setLowVoltageLimit", "src/iidm/ValidationUtils.cpp: checkActivePowerLimits, checkVoltageLimits"]}
{"id": "C36", "title": "Shunt sections stay within the model", "statement": "In every variant the number of connected sections of a shunt compensator is at most the maximum of its model, so reading its susceptance and conductance never fails; zero section means zero; the linear model is proportional.", "quantifier": "every history of setter calls over any number of variants", "why_tests_cant": "the bound is shared by variants while the count is per variant", "anchors": ["src/iidm/ShuntCompensator.cpp: setSectionCount, getB, getG", "src/iidm/ShuntCompensatorLinearModel.cpp: setMaximumSectionCount, getB, getG", "src/iidm/ShuntCompensatorNonLinearModel.cpp: getB, getG"]}
{"id": "C37", "title": "Reactive capability curve interpolation", "statement": "The reactive bounds given by a capability curve at any active power equal the point values at the points, are constant outside the range, lie between the values of the two neighbouring points inside it, and are never inverted when no point is inverted.", "quantifier": "every curve with two or more points and every active power", "why_tests_cant": "real-valued inputs and unbounded point lists", "anchors": ["src/iidm/ReactiveCapabilityCurve.cpp: getMaxQ, getMinQ", "src/iidm/ReactiveCapabilityCurveAdder.cpp: add, addPoint", "src/iidm/MinMaxReactiveLimits.cpp"]}
{"id": "C38", "title": "Temporary limits are kept and ordered", "statement": "The limits object contains every temporary limit given to its adder, ordered by decreasing acceptable duration, with pairwise distinct names, and duration lookups return the given values.", "quantifier": "every sequence of adder calls", "why_tests_cant": "collisions of names and durations over lists of arbitrary length", "anchors": ["include/powsybl/iidm/LoadingLimitsAdder.hxx: addTemporaryLimit, endTemporaryLimit, checkTemporaryLimits, checkAndGetUniqueName", "src/iidm/LoadingLimits.cpp"]}
{"id": "C39", "title": "Overload detection", "statement": "An overload on a temporary limit is reported for every current at or above the permanent limit (times the reduction factor), the interval reported contains the current, and a branch is declared overloaded exactly when one side exceeds its permanent limit.", "quantifier": "every set of limits, current and reduction factor", "why_tests_cant": "real-valued inputs and unbounded limit lists", "anchors": ["src/iidm/util/LimitViolationUtils.cpp: checkPermanentLimit, checkTemporaryLimits", "src/iidm/Branch.cpp: isOverloaded, getOverloadDuration"]}
{"id": "C40", "title": "Terminal current", "statement": "The current of a connected terminal equals sqrt(P^2+Q^2) / (sqrt(3) V / 1000), and 0 when disconnected.", "quantifier": "every P, Q, V", "why_tests_cant": "a law over the reals", "anchors": ["src/iidm/Terminal.cpp: getI"]}
{"id": "C41", "title": "Computing the other side of a branch", "statement": "Computing the state at the other side of a branch and coming back gives the initial state.", "quantifier": "every branch parameter set with non-zero transfer admittance, every state with non-zero voltage", "why_tests_cant": "a law over the complex numbers", "anchors": ["src/iidm/util/SV.cpp: otherSide, flowAtEnd1, flowAtEnd2, voltageAtEnd1, voltageAtEnd2", "src/iidm/util/LinkData.cpp: calculateBranchAdmittance"]}
{"id": "C42", "title": "Anonymised names are reversible and never collide", "statement": "During an export two different strings never get the same anonymised name, equal strings get the same one, and de-anonymising gives back the original, whatever the sequence of strings.", "quantifier": "every sequence of strings of any length", "why_tests_cant": "names are generated in an unbounded sequence", "anchors": ["src/iidm/converter/SimpleAnonymizer.cpp: anonymizeString, deanonymizeString, getAlpha"]}
{"id": "C43", "title": "The anonymisation mapping file round-trips", "statement": "Writing the mapping of an anonymiser and reading it in a new one gives an anonymiser that behaves identically from then on.", "quantifier": "every mapping reachable by a sequence of anonymisations, every later sequence", "why_tests_cant": "strings are arbitrary, including separators", "anchors": ["src/iidm/converter/SimpleAnonymizer.cpp: read, write"]}
{"id": "C44", "title": "IIDM-XML version gates", "statement": "Versions are totally ordered in release order; parsing a namespace accepts exactly the supported ones and inverts formatting; a feature above the requested version is written or read exactly when the version supports it, and a non default value that cannot be written is reported and not silently lost.", "quantifier": "every pair of versions and every feature value", "why_tests_cant": "needs all versions x features x option combinations", "anchors": ["src/iidm/converter/xml/IidmXmlVersion.cpp: operator<, of, fromNamespaceURI", "src/iidm/converter/xml/IidmXmlUtil.cpp", "include/powsybl/iidm/converter/xml/AbstractIdentifiableXml.hxx: write"]}
{"id": "C45", "title": "XML round trip of equipment data", "statement": "Reading back what was written gives the same loading limits, reactive limits, shunt models, switches, internal connections, aliases and properties, for every value and every version that supports them.", "quantifier": "every value and every version", "why_tests_cant": "value space unbounded; default-value elision is value dependent", "anchors": ["include/powsybl/iidm/converter/xml/AbstractConnectableXml.hxx: readLoadingLimits, writeLoadingLimits", "src/iidm/converter/xml/ReactiveLimitsXml.cpp", "src/iidm/converter/xml/ShuntCompensatorXml.cpp", "src/iidm/converter/xml/AliasesXml.cpp", "src/iidm/converter/xml/PropertiesXml.cpp"]}
{"id": "C46", "title": "Terminal references round-trip", "statement": "A terminal reference written to XML is resolved on reading to the same terminal (same equipment, same side).", "quantifier": "every terminal of every kind of equipment", "why_tests_cant": "equipment kinds x sides x ids", "anchors": ["src/iidm/converter/xml/TerminalRefXml.cpp: readTerminalRef, writeTerminalRef, writeTerminalRefAttribute", "include/powsybl/iidm/Enum.hxx: fromString, toString"]}
{"id": "C47", "title": "Enumeration names round-trip", "statement": "Converting an enumeration value to its name and back is the identity, and unknown names are refused.", "quantifier": "every enumeration with distinct names and every string", "why_tests_cant": "the string space is unbounded", "anchors": ["include/powsybl/iidm/Enum.hxx: fromString, toString"]}
{"id": "C48", "title": "Properties behave like a map", "statement": "Properties of an object behave like a map for every history of set and remove; setting returns the previous value; names are listed once.", "quantifier": "every history", "why_tests_cant": "unbounded history", "anchors": ["src/stdcxx/Properties.cpp", "src/iidm/Identifiable.cpp: getProperty, setProperty"]}
{"id": "C49", "title": "Extensions found by name and by type agree", "statement": "After any history of additions and removals of extensions, looking an extension up by type or by name returns the same live extension, and never a destroyed one.", "quantifier": "every history", "why_tests_cant": "two maps updated by different keys", "anchors": ["src/iidm/Extendable.cpp: addExtension, Extendable(Extendable&&)", "include/powsybl/iidm/Extendable.hxx: findExtension, removeExtension"]}
{"id": "C50", "title": "Listing connectables of a voltage level", "statement": "Listing the equipment connected to a voltage level gives each connected equipment exactly once, and the listing can be iterated any number of times with the same result.", "quantifier": "every list of terminals and any number of iterations", "why_tests_cant": "depends on duplicates and on reuse of the returned range", "anchors": ["src/iidm/util/DistinctPredicate.cpp", "include/powsybl/iidm/VoltageLevel.hxx: getConnectables"]}
{"id": "C51", "title": "Best terminal search", "statement": "The terminal finder returns a terminal of the collection that no other terminal beats, the first such one, and nothing exactly when the collection is empty.", "quantifier": "every collection and every list of rules", "why_tests_cant": "unbounded collections", "anchors": ["src/iidm/util/TerminalFinder.cpp"]}
{"id": "C52", "title": "Conversion parameters", "statement": "A boolean / string / list conversion parameter is read from the first of its names present in the properties and otherwise takes its default; an extension is exported exactly when the option selects it.", "quantifier": "every property set and parameter", "why_tests_cant": "unbounded property maps", "anchors": ["src/iidm/converter/ConversionParameters.cpp", "src/iidm/converter/ExportOptions.cpp: withExtension, hasAtLeastOneExtension", "src/iidm/converter/ImportOptions.cpp: withExtension"]}
{"id": "C53", "title": "Nodes per bus", "statement": "The per-bus node sets computed for a voltage level are disjoint, contain every node whose class is a bus, and only those.", "quantifier": "every topology", "why_tests_cant": "topologies are unbounded", "anchors": ["src/iidm/util/Networks.cpp: getNodesByBus, getEquivalentTerminal"]}
{"id": "C54", "title": "Network-wide connected and synchronous components", "statement": "Two buses are in the same connected component exactly when linked by lines, transformers, three-windings transformers or HVDC lines in service; the main component is a largest one; synchronous components refine connected ones.", "quantifier": "every network", "why_tests_cant": "networks are unbounded", "anchors": ["src/iidm/AbstractComponentsManager.cpp: update, fillAdjacencyList", "src/iidm/ConnectedComponentsManager.cpp", "src/iidm/SynchronousComponentsManager.cpp", "src/math/GraphUtil.cpp"]}
{"id": "C55", "title": "Terminal construction decisions", "statement": "A terminal is created exactly for consistent node / bus / connectable-bus arguments, is connected exactly when a bus (not only a connectable bus) is given, and inconsistent combinations are refused.", "quantifier": "every combination of arguments and voltage level kind", "why_tests_cant": "argument combinations", "anchors": ["src/iidm/TerminalBuilder.cpp: build"]}
{"id": "C56", "title": "Moving a network keeps lookups", "statement": "After moving a network object every id, alias, extension and variant lookup gives the same answers as before.", "quantifier": "every network", "why_tests_cant": "depends on contents (aliases, extensions, removed variants) of the moved network", "anchors": ["src/iidm/NetworkIndex.cpp: NetworkIndex(NetworkIndex&&)", "src/iidm/Extendable.cpp: Extendable(Extendable&&)", "include/powsybl/iidm/VariantArray.hxx"]}
{"id": "C57", "title": "Shunt compensator regulation settings are usable", "statement": "In every variant, after any history of calls, a shunt compensator whose voltage regulator is on has a positive target voltage and a non-negative deadband, and a deadband is never negative.", "quantifier": "every history of setter calls and variant operations, with every value, NaN included", "why_tests_cant": "the two settings and the switch are checked one at a time, so only the order of calls over a history can break the invariant", "anchors": ["src/iidm/ShuntCompensator.cpp: setTargetDeadband, setTargetV, setVoltageRegulatorOn", "src/iidm/ShuntCompensatorAdder.cpp: add", "src/iidm/ValidationUtils.cpp: checkVoltageControl, checkTargetDeadband"]}
{"id": "C58", "title": "The name of an enumerator is its identifier", "statement": "The name written for an enumeration value is the identifier of that value in the source.", "quantifier": "every enumeration of the library and its extensions, every value", "why_tests_cant": "Tests check a few values of a few enumerations; a swapped table shows only for the values tested.", "anchors": ["include/powsybl/iidm/Enum.hxx: toString", "src/iidm/HvdcConverterStation.cpp: getNames"]}
{"id": "C59", "title": "The flows computed for a branch are those of its circuit", "statement": "The admittance matrix computed for a branch gives the currents of the circuit made of its series impedance, shunt admittances and ideal transformers; the powers entering at both ends sum up to what the elements consume; a transformer is represented by the values corrected by its current steps.", "quantifier": "every branch parameter set with positive ratios and non-zero impedance, every pair of voltages", "why_tests_cant": "A law over the complex numbers.", "anchors": ["src/iidm/util/LinkData.cpp: calculateBranchAdmittance", "src/iidm/util/SV.cpp: flowAtEnd1, flowAtEnd2, getR, getRho, getAlpha"]}
{"id": "C60", "title": "Setters store what they are given or change nothing", "statement": "Every setter of a generator, generating dangling line, battery, converter station, static VAR compensator, tap changer, shunt compensator or voltage level either stores exactly the value given, in the working variant only for the attributes kept per variant, and touches nothing else, or throws and changes nothing; it accepts exactly the values that keep the settings valid; adders build what they were given.", "quantifier": "every setter, value, state and number of variants", "why_tests_cant": "the value is validated against other stored values of one of many variants, and must be written to the right attribute of the right variant", "anchors": ["src/iidm/Generator.cpp: setMinP, setMaxP, setTargetP, setVoltageRegulatorOn", "src/iidm/Battery.cpp: setP0, setQ0, setMinP, setMaxP", "src/iidm/VscConverterStation.cpp: setVoltageRegulatorOn", "src/iidm/StaticVarCompensator.cpp: setRegulationMode", "include/powsybl/iidm/TapChanger.hxx: setTapPosition, setLowTapPosition, setTargetDeadband", "src/iidm/RatioTapChanger.cpp: setTargetV", "src/iidm/PhaseTapChanger.cpp: setRegulationMode, setRegulationValue", "src/iidm/ShuntCompensator.cpp: setSectionCount, setTargetV", "src/iidm/ShuntCompensatorLinearModel.cpp: setMaximumSectionCount"]}
{"id": "C61", "title": "Buses looked up from the network", "statement": "After any history of changes and queries, the bus got by its id from the bus view or the bus/breaker view of the network is an existing bus that the same view lists under that id, and none exactly when no listed bus has that id.", "quantifier": "every history of voltage levels, buses, topology changes, variant overwrites and queries, every id", "why_tests_cant": "the network keeps its own maps of references to buses owned by the caches of the voltage levels; whether a map is stale depends on the whole history", "anchors": ["src/iidm/NetworkViews.cpp: BusBreakerView::getBus, BusBreakerView::invalidateCache, BusView::getBus", "src/iidm/BusCache.cpp: getBus, getCache, invalidate", "src/iidm/NetworkVariant.cpp: VariantImpl", "src/iidm/NodeBreakerVoltageLevel.cpp: invalidateCache"]}
{"id": "C62", "title": "Connectable bus of a node", "statement": "The connectable bus of a node of a node/breaker voltage level is its own bus if it has one, otherwise a bus reached from it through nodes without bus whatever the positions of the switches, otherwise the first bus of the view in the order of the ids, otherwise none; asking changes nothing but caches.", "quantifier": "every history of calls, every view, variant and node", "why_tests_cant": "the search depends on the whole graph and on a callback that keeps a state during the traversal; samples cover a handful of graphs", "anchors": ["src/iidm/NodeBreakerVoltageLevelTopology.cpp: getConnectableBus", "src/iidm/NodeTerminalViews.cpp: getConnectableBus", "include/powsybl/math/UndirectedGraph.hxx: traverse"]}
{"id": "C63", "title": "Switches found by id", "statement": "After any history of calls on a node/breaker voltage level, a switch is found by its id with the nodes it was added between and the terminals on them until it is removed, its buses in the bus/breaker view are those of its nodes exactly when it is retained in the working variant, and any other id is not found.", "quantifier": "every history of calls, every id and variant", "why_tests_cant": "the map of ids to edges and the edge slots of the graph are kept side by side, and slots are reused after removals; agreement depends on the whole history", "anchors": ["src/iidm/NodeBreakerVoltageLevel.cpp: getEdge, getNode1, getSwitch, addSwitch, removeSwitch", "src/iidm/NodeBreakerVoltageLevelViews.cpp: getTerminal1, getBus1, getSwitch", "src/iidm/NodeBreakerVoltageLevelTopology.cpp: getRetainedSwitch, getBus1, getSwitch"]}
{"id": "C64", "title": "Listings of a node/breaker voltage level", "statement": "The switches, retained switches, internal connections and terminals listed by a node/breaker voltage level are exactly those it has, each switch once, the counts are the lengths, switches and internal connections are all the edges, the maximum node index is the greatest node, and a node has attached equipment exactly when a terminal is on it.", "quantifier": "every history of calls, every variant and node", "why_tests_cant": "each listing filters other slots of the graph; holes left by removals and reused slots make samples insufficient", "anchors": ["src/iidm/NodeBreakerVoltageLevel.cpp: getSwitchCount, getInternalConnectionCount, getMaximumNodeIndex, getTerminals, getTerminal", "src/iidm/NodeBreakerVoltageLevelViews.cpp: getInternalConnections, getOptionalTerminal, hasAttachedEquipment", "src/iidm/NodeBreakerVoltageLevelTopology.cpp: getSwitches, getSwitchCount"]}
{"id": "C65", "title": "Topological traversals end", "statement": "A topological traversal from a terminal ends without error whatever the traverser answers, and every question it asks is justified by the answers so far: the terminals and switches asked about are at places that accepted switches, internal connections and accepted equipments lead to, with the right connection flag.", "quantifier": "every network of node/breaker and bus/breaker voltage levels, every traverser including those with a state, every start", "why_tests_cant": "a traversal recurses over the terminals of the whole network and over graphs inside each voltage level; loops of lines and answers that change make endless recursion conceivable", "anchors": ["src/iidm/NodeBreakerVoltageLevel.cpp: traverse", "src/iidm/BusBreakerVoltageLevel.cpp: traverse", "src/iidm/VoltageLevel.cpp: addNextTerminals", "include/powsybl/iidm/VoltageLevelTopologyTraverser.hpp: TopologyTraverser"]}
{"id": "C66", "title": "What a topological traversal reaches", "statement": "With a traverser whose answers depend on the question only, a topological traversal accepts exactly the terminals that it lets reach from the start, asks about exactly these and those next to them, and asks about each accepted terminal once, whatever the order of addresses.", "quantifier": "every network, every start, every such traverser", "why_tests_cant": "the reached set is a closure over graphs and equipments of the whole network; the order of the sets of terminals is the order of addresses and varies between runs", "anchors": ["src/iidm/NodeBreakerVoltageLevel.cpp: traverse", "src/iidm/BusBreakerVoltageLevel.cpp: traverse", "src/iidm/VoltageLevel.cpp: addNextTerminals", "include/powsybl/iidm/TerminalSet.hpp: TerminalSet"]}
{"id": "C67", "title": "Injections survive a write and a read", "statement": "A load, generator, battery, busbar section, converter station, static VAR compensator, shunt compensator or dangling line written in version 1.5 is read back as it was: names, aliases, properties, attributes, place and flows of its terminal, reference to its regulating terminal, reactive limits, shunt model, generation and loading limits.", "quantifier": "every equipment that its adder and setters allow, indented or not, inside any document, with any anonymizer that inverts its names", "why_tests_cant": "the writers skip defaults and undefined values and the readers supply them, class by class; sub elements share one callback that must consume exactly its own nodes", "anchors": ["src/iidm/converter/xml/LoadXml.cpp: writeRootElementAttributes", "src/iidm/converter/xml/GeneratorXml.cpp: readSubElements", "src/iidm/converter/xml/BatteryXml.cpp: readSubElements", "src/iidm/converter/xml/BusbarSectionXml.cpp: writeRootElementAttributes", "src/iidm/converter/xml/LccConverterStationXml.cpp: readRootElementAttributes", "src/iidm/converter/xml/VscConverterStationXml.cpp: readRootElementAttributes", "src/iidm/converter/xml/StaticVarCompensatorXml.cpp: readRootElementAttributes", "src/iidm/converter/xml/ShuntCompensatorXml.cpp: readElement", "src/iidm/converter/xml/DanglingLineXml.cpp: readSubElements", "include/powsybl/iidm/converter/xml/AbstractIdentifiableXml.hxx: read", "include/powsybl/iidm/converter/xml/AbstractConnectableXml.hxx: readNodeOrBus"]}
{"id": "C68", "title": "Branches survive a write and a read", "statement": "A line, tie line, HVDC line, two or three windings transformer written in version 1.5 is read back as it was: names, aliases, properties, characteristics, both halves of a tie line, places and flows of every terminal, ratio and phase tap changers with their steps and regulating terminal, loading limits of every side.", "quantifier": "every equipment that its adders allow, indented or not, inside any document, with any anonymizer that inverts its names", "why_tests_cant": "each side has its own attribute names made of suffixes; defaults of one side hide swaps of the other; the sub elements of the three legs share one callback", "anchors": ["src/iidm/converter/xml/LineXml.cpp: writeRootElementAttributes", "src/iidm/converter/xml/TieLineXml.cpp: readHalf", "src/iidm/converter/xml/HvdcLineXml.cpp: readRootElementAttributes", "src/iidm/converter/xml/TwoWindingsTransformerXml.cpp: readSubElements", "src/iidm/converter/xml/ThreeWindingsTransformerXml.cpp: readSubElements", "src/iidm/converter/xml/AbstractTransformerXml.hxx: readRatioTapChanger", "include/powsybl/iidm/converter/xml/AbstractConnectableXml.hxx: readNodeOrBus"]}
{"id": "C69", "title": "Reading never makes an invalid equipment", "statement": "Whatever the document, an equipment that is read has the invariants of its class: aliases distinct and typed once, a bus for a terminal without a node, values set, ranges not empty, setpoints for what is regulated, factors within bounds, tap positions inside the steps, at most one regulating tap changer, limits positive and ordered.", "quantifier": "every list of nodes, well formed or not, every reading of numbers, every anonymizer", "why_tests_cant": "a document that breaks one check among hundreds must be refused; tests only cover the documents that someone thought of", "anchors": ["src/iidm/ValidationUtils.cpp: checkVoltageControl", "src/iidm/ValidationUtils.cpp: checkActivePowerLimits", "src/iidm/ValidationUtils.cpp: checkTapPosition", "src/iidm/ValidationUtils.cpp: checkOnlyOneTapChangerRegulatingEnabled", "src/iidm/GeneratorAdder.cpp: add", "src/iidm/DanglingLineGenerationAdder.cpp: add", "src/iidm/HvdcLineAdder.cpp: add", "src/iidm/ThreeWindingsTransformerLegAdder.cpp: add", "include/powsybl/iidm/converter/xml/AbstractIdentifiableXml.hxx: read"]}
{"id": "C70", "title": "Voltage levels and substations survive an export and an import", "statement": "A voltage level of either topology (buses, busbar sections, switches, internal connections, equipment) and a substation (country, operator, tags, voltage levels, transformers) are read back as they were written, in every layout of the document; the voltages and angles of the calculated buses are given back to the same buses.", "quantifier": "every voltage level and substation whose values satisfy the checks of the adders, every anonymizer that gives names back, every codec that reads back what it writes", "why_tests_cant": "the contents nest four levels deep, with any number of each element; a field that is lost for one topology or one kind of equipment is not seen by a test that does not set it", "anchors": ["src/iidm/converter/xml/VoltageLevelXml.cpp: writeNodeBreakerTopology", "src/iidm/converter/xml/VoltageLevelXml.cpp: writeBusBreakerTopology", "src/iidm/converter/xml/VoltageLevelXml.cpp: readSubElements", "src/iidm/converter/xml/SubstationXml.cpp: readRootElementAttributes", "src/iidm/converter/xml/SubstationXml.cpp: writeSubElements", "src/iidm/converter/xml/BusXml.cpp: readSubElements", "src/iidm/converter/xml/NodeBreakerViewSwitchXml.cpp: readRootElementAttributes", "src/iidm/converter/xml/BusBreakerViewSwitchXml.cpp: readRootElementAttributes"]}
{"id": "C71", "title": "A network survives an export and an import", "statement": "The nodes of the document to which a network is exported (identifier, source format, date, forecast distance, aliases, properties, substations with all that they contain, lines, tie lines, HVDC lines) are read back as the same network, indented or not; so two networks with the same document are equal but for their fictitious flag. Whatever the document, a network that is read contains only what the adders accept, down to each equipment.", "quantifier": "every network whose objects satisfy the checks of their adders, every anonymizer that gives names back, every codec that reads back what it writes; for the last sentence, every list of nodes", "why_tests_cant": "the whole document is the composition of some thirty kinds of elements, in any number; a reference file compares one network at a time", "anchors": ["src/iidm/converter/xml/NetworkXml.cpp: read", "src/iidm/converter/xml/NetworkXml.cpp: write", "src/iidm/Network.cpp: setForecastDistance"]}
{"id": "C72", "title": "An import accepts exactly the networks whose objects go together", "statement": "A document that can be read is imported if and only if: identifiers are not empty and no identifier or alias is used twice in the network; every terminal is in an existing voltage level, of the topology of its place, on a node that no other terminal has or on a bus of this voltage level; the voltage levels of a transformer are in its substation; the buses of a switch are in its voltage level; an HVDC line is between converter stations; every reference to a terminal designates the terminal of an equipment. Then every terminal, station and reference is the one that was named, and the document of such a network is imported as this network. The import never does anything undefined.", "quantifier": "every list of nodes of a document in the usual order, every network", "why_tests_cant": "these conditions relate objects that are anywhere in the network and are checked in a dozen places while the network is being built; tests only break them one at a time in small files", "anchors": ["include/powsybl/iidm/IdentifiableAdder.hxx: checkAndGetUniqueId", "src/iidm/NetworkIndex.cpp: addAlias", "src/iidm/NetworkIndex.cpp: find", "src/iidm/NodeBreakerVoltageLevel.cpp: attach", "src/iidm/BusBreakerVoltageLevel.cpp: attach", "include/powsybl/iidm/BranchAdder.hxx: checkAndGetVoltageLevel1", "src/iidm/TwoWindingsTransformerAdder.cpp: add", "src/iidm/ThreeWindingsTransformerLegAdder.cpp: checkAndGetVoltageLevel", "src/iidm/HvdcLineAdder.cpp: getConverterStation", "src/iidm/converter/xml/TerminalRefXml.cpp: readTerminalRef"]}
{"id": "C73", "title": "An anonymized document tells nothing of the names", "statement": "The anonymized export of a network is the plain export of the network whose identifiers, names, aliases, buses, voltage levels, references, owners and tags are replaced; two networks have the same anonymized document exactly when they are the same once their names are replaced; the document can be read, and imported, without the file of the names.", "quantifier": "for every network that can be read back, every anonymizer that gives the names back, every codec, every layout", "why_tests_cant": "A test compares one document with one expected file: it cannot show that no name at all, of any class, in any network, gets into the document, nor that every anonymized document can be imported alone.", "anchors": ["src/iidm/converter/xml/NetworkXml.cpp: NetworkXml::write", "include/powsybl/iidm/converter/xml/AbstractIdentifiableXml.hxx: write", "src/iidm/converter/xml/HvdcLineXml.cpp: writeRootElementAttributes, readRootElementAttributes", "src/iidm/converter/xml/SubstationXml.cpp: writeRootElementAttributes", "src/iidm/converter/xml/TerminalRefXml.cpp: writeTerminalRef", "src/iidm/converter/xml/TieLineXml.cpp: writeHalf"]}
{"id": "C74", "title": "Boundaries show the state of the other end", "statement": "The voltage, angle and powers that the boundary of a half line or of a dangling line shows are those at the end of its circuit that is not at the terminal; the two boundaries of a tie line show the same voltage and opposite powers exactly when the values of its terminals are those of the two halves one after the other; nothing is shown when a value is missing.", "quantifier": "for all characteristics, complex voltages and currents", "why_tests_cant": "Tests compare a few computed values with a tolerance; the matching of the two boundaries is an equivalence over all states of the circuit.", "anchors": ["src/iidm/HalfLineBoundary.cpp: Boundary::getV, getAngle, getP, getQ", "src/iidm/DanglingLineBoundary.cpp: Boundary::getV, getAngle, getP, getQ", "src/iidm/Boundary.cpp: Boundary::getV, getAngle", "src/iidm/util/SV.cpp: SV::otherSideU, otherSideA, otherSideP, otherSideQ"]}
{"id": "C75", "title": "The characteristics of a tie line are those of its halves", "statement": "The line with the resistance, reactance, conductances and susceptances that a tie line gives has the same voltages and currents as its two halves one after the other.", "quantifier": "for all characteristics of the halves, complex voltages and currents", "why_tests_cant": "Tests check that the getters add two numbers; whether the sum is the right line is a statement about all voltages and currents.", "anchors": ["src/iidm/TieLine.cpp: TieLine::getR, getX, getG1, getB1, getG2, getB2"]}
{"id": "C76", "title": "Measurements of an equipment", "statement": "After any sequence of additions, removals and setter calls, the measurements of an equipment have distinct identifiers unless empty, are on a side as the equipment wants, are what was added and not removed, are found by their identifier and listed by their type; an addition is accepted exactly when the adder is complete and its identifier free, returns the measurement it adds, and otherwise changes nothing; a valid measurement has a value.", "quantifier": "for all sequences of calls, adders, kinds of equipment", "why_tests_cant": "Tests add two or three measurements with distinct identifiers to one load; the invariant, the reference returned and the lifetime of the type that filters a listing depend on the sequence of calls.", "anchors": ["extensions/iidm/src/MeasurementAdder.cpp: MeasurementAdder::add, putProperty", "extensions/iidm/src/Measurement.cpp: Measurement::setValue, setValid, remove, putProperty", "extensions/iidm/src/Measurements.cpp: Measurements::getMeasurement, getMeasurements, remove", "extensions/iidm/src/MeasurementValidationUtil.cpp: checkId, checkSide, checkValue"]}
{"id": "C77", "title": "Discrete measurements of an object", "statement": "After any sequence of additions, removals and setter calls, the discrete measurements of an object have distinct identifiers unless empty, are about something the object has (switch, tap changer of the right transformer) and hold a value that is read back with its own type and with no other; an addition is accepted exactly when the adder is complete and its identifier free, and otherwise changes nothing.", "quantifier": "for all sequences of calls, adders, kinds of object", "why_tests_cant": "Tests try a few combinations of type, tap changer and object; the agreement of the type and of the value after every sequence of setters, and the uninitialised type of an adder, are not seen by running samples.", "anchors": ["extensions/iidm/src/DiscreteMeasurementAdder.cpp: DiscreteMeasurementAdder::add", "extensions/iidm/include/powsybl/iidm/extensions/iidm/DiscreteMeasurementAdder.hpp: DiscreteMeasurementAdder", "extensions/iidm/src/DiscreteMeasurement.cpp: DiscreteMeasurement::setValue, getValueAsInt, getValueAsString, getValueAsBoolean", "extensions/iidm/src/DiscreteMeasurementValidationUtil.cpp: checkType, checkTapChanger, checkValue, getValueType"]}
{"id": "C78", "title": "Extensions that hold values", "statement": "An extension is added exactly when the object is one that can have it, every value without default was given, every value is one it may hold and the feeders of a position go together; it then holds the last value given for each attribute, or the default; each setter writes its value, in the working variant, and nothing else, when the extension may hold that value, and otherwise changes nothing; so that after any sequence of calls, in every variant, the values are those the extension may hold and nothing is undefined.", "quantifier": "for the sixteen extensions that hold values, all sequences of calls on the adder and on the extension, all objects, all variants", "why_tests_cant": "Tests build each extension once with good values; which values survive any mix of refused and accepted calls, on every class of object and in the other variants, is not sampled.", "anchors": ["extensions/iidm/src/ActivePowerControl.cpp: ActivePowerControl", "extensions/iidm/src/HvdcOperatorActivePowerRange.cpp: checkOPR", "extensions/iidm/src/VoltagePerReactivePowerControl.cpp: checkSlope", "extensions/iidm/src/ThreeWindingsTransformerPhaseAngleClock.cpp: checkPhaseAngleClock", "extensions/sld/src/ConnectablePosition.cpp: ConnectablePosition::check, Feeder::setName", "extensions/sld/src/ConnectablePositionAdder.cpp: FeederAdder::add", "extensions/entsoe/src/MergedXnode.cpp: MergedXnode", "src/iidm/extensions/LoadDetail.cpp: LoadDetail", "src/iidm/extensions/SlackTerminalAdder.cpp: createExtension", "src/iidm/ExtensionAdder.cpp: ExtensionAdder::add"]}
{"id": "C79", "title": "XML serializers of the extensions", "statement": "An extension made by any sequence of calls is written, and reading what was written on the same object of another network gives back the extension with all its values (of the working variant), and the same measurements in the same order with their properties.", "quantifier": "for the seventeen extensions that have a serializer, all sequences of calls that make them, all objects, all variants, indented or not, anonymized or not", "why_tests_cant": "Tests export and import one file per extension; values that are accepted by a setter but refused by the reader, or written but not read, are reached only by combinations of calls.", "anchors": ["extensions/iidm/src/ActivePowerControlXmlSerializer.cpp: read, write", "extensions/iidm/src/HvdcOperatorActivePowerRangeXmlSerializer.cpp: read, write", "extensions/iidm/src/MeasurementsXmlSerializer.cpp: read, write", "extensions/iidm/src/DiscreteMeasurementsXmlSerializer.cpp: readDiscreteMeasurement, write", "extensions/sld/src/BranchStatusXmlSerializer.cpp: read, write", "extensions/sld/src/ConnectablePositionXmlSerializer.cpp: readPosition, writePosition", "extensions/sld/src/BusbarSectionPositionXmlSerializer.cpp: read, write", "extensions/entsoe/src/MergedXnodeXmlSerializer.cpp: read, write", "extensions/entsoe/src/EntsoeAreaXmlSerializer.cpp: read, write", "src/iidm/extensions/LoadDetailXmlSerializer.cpp: read, write", "src/iidm/extensions/SlackTerminalXmlSerializer.cpp: read, write"]}
{"id": "C80", "title": "Extensions in the document of a network", "statement": "A network is exported with the extensions that the options ask for, those that cannot be serialized being left out; when the document is imported the objects get back the extensions that the importer asks for and has a serializer for, the others are skipped without harm to the rest, or refused when the options say so.", "quantifier": "for all networks, all extensions on all objects, all import and export options (lists, versions, missing serializers), all sets of serializers on both sides, indented or not, anonymized or not", "why_tests_cant": "Tests export networks with one or two extensions with the default options; combinations of lists of extensions, versions, missing serializers and declined extensions are not met.", "anchors": ["src/iidm/converter/xml/NetworkXml.cpp: checkExtensionsNotFound, getExtensionNames, getExtensionSerializer, getNamespaceUri, readExtensions, writeExtensionNamespaces, writeExtension, writeExtensions, read, write", "src/iidm/converter/ExportOptions.cpp: addExtensionVersion, getExtensionVersion, hasAtLeastOneExtension, withExtension", "src/iidm/converter/ImportOptions.cpp: withExtension", "src/iidm/converter/xml/AbstractVersionableExtensionXmlSerializer.cpp: checkExtensionVersionSupported, checkWritingCompatibility, getNamespaceUri, getVersion", "src/iidm/converter/xml/ExtensionXmlSerializer.cpp: checkExtensionVersionSupported, isSerializable", "src/iidm/extensions/SlackTerminalXmlSerializer.cpp: isSerializable"]}
{"id": "C81", "title": "Slack terminals of a network", "statement": "Each voltage level has in each variant the slack terminal that the calls gave it: attaching a bus gives its voltage level the best connected terminal in the working variant and touches nothing else, resetting the network takes away the slack terminals of the working variant only, cloning a variant copies the slack terminals of its source, removing a variant leaves the others theirs, and an extension that no variant uses does not stay once it is reset. A slack terminal is always a terminal of its voltage level.", "quantifier": "for all networks and all sequences of clones, removals and selections of variants, adders, setters, resets, attachments and removals of extensions", "why_tests_cant": "Tests use two variants, the only number for which the resize of the vector in reduceVariantArraySize is right, and one voltage level.", "anchors": ["src/iidm/extensions/SlackTerminal.cpp: SlackTerminal, allocateVariantArrayElement, attach, deleteVariantArrayElement, extendVariantArraySize, getTerminal, isEmpty, reduceVariantArraySize, reset, setTerminal", "src/iidm/extensions/SlackTerminalAdder.cpp: createExtension", "src/iidm/Identifiable.cpp: allocateVariantArrayElement, deleteVariantArrayElement, extendVariantArraySize, reduceVariantArraySize", "src/iidm/util/TerminalFinder.cpp: find"]}
{"id": "C82", "title": "Equipment and balance of a bus", "statement": "Visiting the equipment of a bus calls, once for each of its connected terminals (or of all its terminals) and in their order, the method made for the class of the equipment, with the equipment and the side of the terminal; a visitor of terminals gets those terminals back. The listings of a bus give each equipment once for each of its connected terminals, in the one listing of its class. The active and reactive powers of a bus are NaN exactly when no terminal is connected, otherwise the sums of the values that are set of the connected injections, so that the powers of the buses add up to those of the injections whatever the buses.", "quantifier": "for all networks made by calls, all buses of the three kinds, all visitors (that may throw), all values of the powers", "why_tests_cant": "The classes, sides, kinds of bus, NaN and disconnected terminals combine; tests visit a few buses of one network.", "anchors": ["src/iidm/Bus.cpp: getAll, getP, getQ, visitConnectedEquipments", "src/iidm/TopologyVisitor.cpp: visitEquipments", "src/iidm/AbstractTerminalTopologyVisitor.cpp: visitInjection, visitBranch, visitThreeWindingsTransformer", "src/iidm/CalculatedBus.cpp: getConnectedTerminals, getConnectedTerminalCount, visitConnectedOrConnectableEquipments", "src/iidm/ConfiguredBus.cpp: getConnectedTerminals, getConnectedTerminalCount, visitConnectedOrConnectableEquipments", "src/iidm/MergedBus.cpp: getConnectedTerminals, getConnectedTerminalCount, visitConnectedOrConnectableEquipments", "src/iidm/Branch.cpp: getSide, getTerminal", "src/iidm/ThreeWindingsTransformer.cpp: getSide", "src/iidm/Terminal.cpp: setP, setQ", "include/powsybl/iidm/Terminal.hxx: isInstanceOf, map"]}
{"id": "C83", "title": "Voltage and angle of a bus", "statement": "Setting the voltage or the angle of a bus of any kind writes it to what the bus owns (its terminals, itself, or its configured buses) in the working variant and nowhere else; a refused voltage changes nothing. What is set on a bus is then read on it; what is set on a bus of the bus view is read on every bus of either view that shares a node with it, and on no bus that closed switches do not link to it. A bus without terminals shows the values of a terminal linked to it by closed switches, and none exactly when there is none. An invalidated bus gives and takes nothing.", "quantifier": "for all graphs reached by calls, all states of the switches, all buses of both views, all configured and merged buses, all values (NaN and infinities included), all variants", "why_tests_cant": "The reference terminal of a bus depends on the order of a depth-first search; tests set and read a few buses that all have terminals.", "anchors": ["src/iidm/CalculatedBus.cpp: findTerminal, getV, getAngle, setV, setAngle, invalidate", "src/iidm/ConfiguredBus.cpp: getV, getAngle, setV, setAngle", "src/iidm/MergedBus.cpp: getV, getAngle, setV, setAngle, invalidate", "src/iidm/NodeTerminal.cpp: getV, getAngle, setV, setAngle", "src/iidm/NodeBreakerVoltageLevelViews.cpp: traverse", "src/iidm/ValidationUtils.cpp: checkVoltage", "include/powsybl/math/UndirectedGraph.hxx: traverse"]}
{"id": "C84", "title": "Regulating terminals name terminals that are there", "statement": "The terminal a generator, a shunt compensator, a static VAR compensator, a tap changer or a remote reactive power control refers to is the one last asked for, the own terminal when none was given, and it is a terminal of an equipment of the same network. The setters take exactly such terminals, refuse those of another network and change nothing when they refuse.", "quantifier": "for all sequences of additions, removals, merges, setters and writings, on any number of networks and equipment", "why_tests_cant": "A reference left behind by a removal is only seen when it is used later, and then anything may happen; tests that regulate remotely never remove the remote equipment.", "anchors": ["src/iidm/Generator.cpp: setRegulatingTerminal, getRegulatingTerminal", "src/iidm/ShuntCompensator.cpp: setRegulatingTerminal", "src/iidm/StaticVarCompensator.cpp: setRegulatingTerminal", "src/iidm/GeneratorAdder.cpp: add", "src/iidm/ShuntCompensatorAdder.cpp: add", "src/iidm/StaticVarCompensatorAdder.cpp: add", "src/iidm/ValidationUtils.cpp: checkRegulatingTerminal, checkRatioTapChangerRegulation, checkPhaseTapChangerRegulation", "src/iidm/RatioTapChanger.cpp: setRegulationTerminal", "src/iidm/PhaseTapChanger.cpp: setRegulationTerminal", "include/powsybl/iidm/TapChanger.hxx: setRegulationTerminal", "src/iidm/Connectable.cpp: remove", "extensions/iidm/src/RemoteReactivePowerControlAdder.cpp: createExtension", "src/iidm/converter/xml/TerminalRefXml.cpp: writeTerminalRef"]}
{"id": "C85", "title": "The limits of an equipment, by side and by kind", "statement": "On each side an equipment carries at most one set of limits per kind: the one last added there and not removed since, with the permanent limit last given to it. It is found by the getters, listed once in the order of the kinds, and is the one the overload checks compare the flow of that side and kind with. A set of limits that was replaced or removed is no longer there, and using it is undefined. A permanent limit is declared reached exactly when the size of the flow reaches it.", "quantifier": "for all sequences of additions, removals and changes of limits, on any number of sides, and all flows", "why_tests_cant": "The tests add each kind once per side and never keep a reference to limits they replace; the checks of active power are only made with positive flows.", "anchors": ["src/iidm/OperationalLimitsHolder.cpp: setOperationalLimits, getOperationalLimits", "include/powsybl/iidm/OperationalLimitsHolder.hxx: getOperationalLimits", "src/iidm/OperationalLimits.cpp: remove", "src/iidm/CurrentLimitsAdder.cpp: add", "src/iidm/ActivePowerLimitsAdder.cpp: add", "src/iidm/ApparentPowerLimitsAdder.cpp: add", "src/iidm/FlowsLimitsHolder.cpp: getActivePowerLimits, getApparentPowerLimits, getCurrentLimits", "src/iidm/Branch.cpp: getLimits, getValueForLimit, checkPermanentLimit, checkTemporaryLimits, isOverloaded, getOverloadDuration", "src/iidm/util/LimitViolationUtils.cpp: checkPermanentLimit, checkTemporaryLimits", "src/iidm/LoadingLimits.cpp: setPermanentLimit", "src/iidm/ThreeWindingsTransformerLeg.cpp: Leg"]}
{"id": "C86", "title": "Equipment in the older versions of IIDM-XML: what is kept, what is reported", "statement": "A busbar section, a static VAR compensator, a dangling line, a line or a tie line written in any version from 1.0 to 1.5 is read back as it was, less what that version does not have: aliases and their types, the flag of fictitious equipment, generations of dangling lines (which are taken off the load), limits on powers. What is lost is reported, once each: logged or thrown according to the behaviour asked for. What the writer produced, the reader accepts.", "quantifier": "for all equipment that the adders accept, all six versions, all behaviours, all anonymizers that invert, all codecs that keep its numbers", "why_tests_cant": "The tests export in older versions a few networks without lost data and compare with reference files; nearly no test mixes a feature of a later version with an older one, and none reads back what was logged.", "anchors": ["src/iidm/converter/xml/BusbarSectionXml.cpp: writeRootElementAttributes, readRootElementAttributes", "src/iidm/converter/xml/StaticVarCompensatorXml.cpp: writeRootElementAttributes, writeSubElements, readRootElementAttributes, readSubElements", "src/iidm/converter/xml/DanglingLineXml.cpp: writeRootElementAttributes, writeSubElements, readRootElementAttributes, readSubElements", "src/iidm/converter/xml/LineXml.cpp: writeSubElements, readSubElements", "src/iidm/converter/xml/TieLineXml.cpp: writeHalf, writeRootElementAttributes, readHalf, readRootElementAttributes, checkBoundaryValue", "src/iidm/converter/xml/AliasesXml.cpp: write, read", "include/powsybl/iidm/converter/xml/AbstractIdentifiableXml.hxx: write, read", "src/iidm/converter/xml/IidmXmlUtil.cpp: assertMinimumVersion, assertMinimumVersionAndRunIfNotDefault, writeDoubleAttributeFromMinimumVersion"]}
{"id": "C87", "title": "Transformers in the older versions of IIDM-XML: what is kept, what is reported", "statement": "A tap changer, a two windings transformer or a three windings transformer written in any version from 1.0 to 1.5 is read back as it was, less what that version does not have: dead bands of 0, rated apparent powers, shunt admittances of the second and third legs, the rated voltage of the star point, limits on powers. What is lost is reported. What the writer produced, the reader accepts.", "quantifier": "for all transformers that the adders accept, all six versions, all behaviours, all anonymizers that invert, all codecs that keep their numbers", "why_tests_cant": "The tests compare a few exports in older versions with reference files: they never have a phase tap changer on a leg in version 1.0, nor a rated power before version 1.2.", "anchors": ["src/iidm/converter/xml/AbstractTransformerXml.hxx: writeRatioTapChanger, readRatioTapChanger, writePhaseTapChanger, readPhaseTapChanger, writeTargetDeadband, readTargetDeadband, writeRatedS", "src/iidm/converter/xml/TwoWindingsTransformerXml.cpp: writeRootElementAttributes, writeSubElements, readRootElementAttributes, readSubElements", "src/iidm/converter/xml/ThreeWindingsTransformerXml.cpp: writeRootElementAttributes, writeSubElements, readRootElementAttributes, readSubElements", "src/iidm/ThreeWindingsTransformerAdder.cpp: add, newLeg2, newLeg3"]}
{"id": "C88", "title": "A whole network in the older versions of IIDM-XML", "statement": "A network written in any version from 1.0 to 1.5 is read back, in every layout, as it was, less what that version does not have, which is reported, once each and in the order of the document: logged, or thrown, according to the behaviour asked for. What the writer produced, the reader accepts. In version 1.5 nothing is lost but the flag of the network; shunt compensators before version 1.3 become linear ones, calculated buses come with 1.1, voltages of busbar sections and flows at the boundary of tie lines are given by the versions that have them.", "quantifier": "for all networks that the adders accept, all six versions, all behaviours, all layouts, all anonymizers that invert, all codecs that keep its numbers", "why_tests_cant": "The tests export a few networks in older versions and compare with reference files; a network that mixes features of several versions is never exported in an older one and read back.", "anchors": ["src/iidm/converter/xml/NetworkXml.cpp: write, read", "src/iidm/converter/xml/SubstationXml.cpp: writeSubElements, readSubElements", "src/iidm/converter/xml/VoltageLevelXml.cpp: writeNodeBreakerTopology, writeBusBreakerTopology, writeSubElements, readNodeBreakerTopology, readBusBreakerTopology, readCalculatedBus, readSubElements", "src/iidm/converter/xml/ShuntCompensatorXml.cpp: writeRootElementAttributes, writeSubElements, readElement", "src/iidm/converter/xml/AbstractSwitchXml.hxx: writeRootElementAttributes", "src/iidm/converter/xml/NodeBreakerViewSwitchXml.cpp: readRootElementAttributes", "src/iidm/converter/xml/BusBreakerViewSwitchXml.cpp: readRootElementAttributes", "src/iidm/converter/xml/AliasesXml.cpp: write, read"]}
{"id": "C89", "title": "Export of a network at a coarser level of topology", "statement": "A network exported at a level of topology (node/breaker, bus/breaker, bus/branch) is read back as it is seen at that level: a voltage level is left as it is when the level is its own or finer, otherwise it becomes a bus/breaker one with the buses of the view and, at the bus/breaker level, its retained switches, with their state; each terminal is on the bus that the view gives it, connected if it has a bus in the view, and nothing else changes. If the network could be imported, so can that document, provided every terminal has a bus in the view, no reference designates a busbar section and no object has the name of a bus of the view. At the bus/branch level, two terminals of a bus/breaker voltage level are on the same bus if and only if closed switches link their buses.", "quantifier": "for all networks that the adders accept, all three levels, all views of the voltage levels, all layouts, all anonymizers that invert, all codecs that keep its numbers", "why_tests_cant": "The tests export two networks at each level and compare with reference files; the documents at coarser levels are never read back, and no network mixes the two kinds of voltage levels.", "anchors": ["src/iidm/TopologyLevel.cpp: getMinTopologyLevel, getTopologyKind", "include/powsybl/iidm/converter/xml/AbstractConnectableXml.hxx: writeNodeOrBus, writeBus", "src/iidm/converter/xml/VoltageLevelXml.cpp: writeBusBranchTopology, writeBusBreakerTopology, writeRootElementAttributes, writeSubElements", "src/iidm/converter/xml/BusBreakerViewSwitchXml.cpp: writeRootElementAttributes", "src/iidm/converter/xml/TerminalRefXml.cpp: writeTerminalRef, writeTerminalRefAttribute", "src/iidm/BusTerminalViews.cpp: getBus, getConnectableBus", "src/iidm/converter/BusFilter.cpp: create, test"]}
{"id": "C90", "title": "The component that a bus is told to be in", "statement": "After any history of changes of topology and queries, every bus of the bus view is told to be in its connected (synchronous) component, with the number and the size of C54; every bus of the bus/breaker view and every configured bus is told to be in the component of the bus of the bus view that it is part of, even without any terminal, and in none if it is part of none; a bus says that it is in the main component exactly when it is told component 0. The buses of a component are those of the bus view that are told to be in it, each once, as many as its size. A component that was told stays readable until the next change of topology; from then on its use is undefined.", "quantifier": "for all networks of node/breaker and bus/breaker voltage levels, all histories of changes of topology and queries, all numbers left by earlier computations, both kinds of components", "why_tests_cant": "The tests compute the components of a few fixed networks once or twice; the numbers are stored on terminals and configured buses that outlive the buses of the views, and whether a stale number can show depends on the whole history of topologies.", "anchors": ["src/iidm/AbstractComponentsManager.cpp: getComponent, invalidate, update", "src/iidm/Component.cpp: getBuses, getNum, getSize", "src/iidm/ConnectedComponent.cpp: checkBus", "src/iidm/SynchronousComponent.cpp: checkBus", "src/iidm/CalculatedBus.cpp: getConnectedComponent, setConnectedComponentNumber", "src/iidm/ConfiguredBus.cpp: getConnectedComponent, setConnectedComponentNumber", "src/iidm/MergedBus.cpp: getConnectedComponent, isInMainConnectedComponent, setConnectedComponentNumber", "src/iidm/Bus.cpp: isInMainConnectedComponent", "src/iidm/util/ConnectedComponents.cpp: getCcNum"]}
{"id": "C91", "title": "Components are the paths of the current", "statement": "After any history of changes of topology and queries, two places of the network (nodes, configured buses) that are on buses of the bus view are told to be in the same connected component if and only if the current can go from one to the other through internal connections, closed switches, and lines, transformers and HVDC lines connected at both ends; in the same synchronous component if and only if it can do so without HVDC lines. Paths through places that are on no bus of the bus view (dead ends, a transformer leg alone) are counted too and change nothing. A place is on a bus of the bus view if and only if switches link it to a busbar section and another equipment or to a branch and another equipment (to a branch, in a bus/breaker voltage level).", "quantifier": "for all networks mixing node/breaker and bus/breaker voltage levels, all equipment between them, all histories, both kinds of components, all places", "why_tests_cant": "The tests compare the component numbers of a handful of buses in fixed networks; that discarding the buses that do not qualify never cuts a path depends on the thresholds of the validity of a bus, for every topology.", "anchors": ["src/iidm/AbstractComponentsManager.cpp: fillAdjacencyList, addToAdjacencyList, update", "src/iidm/ConnectedComponentsManager.cpp: fillAdjacencyList", "src/iidm/NodeTerminalViews.cpp: getBus", "src/iidm/BusTerminalViews.cpp: getBus, getConnectableBus", "src/iidm/NodeBreakerVoltageLevelTopology.cpp: isBusValid", "src/iidm/BusBreakerVoltageLevelTopology.cpp: isBusValid, getMergedBus"]}
{"id": "C92", "title": "References to buses and sides of branches", "statement": "A reference to an injection, or to a side of a branch, resolves to exactly the bus that the terminal is on at the given level of topology (bus/breaker: retained switches open, or the configured bus it is connected to; bus/branch: all closed switches), and to none if it is on none. A reference to a configured bus resolves to that bus at the bus/breaker level, and at the bus/branch level to the bus of the bus view that it is part of. A reference is refused exactly at the node/breaker level, for something that is neither a bus nor an injection without a side, and for something that is not a branch with a side; an unknown name gives no bus. The side of a terminal and the terminal of a side are inverse of each other, the terminal of a branch in a voltage level is the only one there, and anything else is refused.", "quantifier": "for all networks mixing node/breaker and bus/breaker voltage levels, all references, all levels of topology, all terminals", "why_tests_cant": "The tests resolve one reference of each kind in one network; that the first connected terminal is as good as any other, and when a bus is lost, depends on every topology.", "anchors": ["src/iidm/IdBasedBusRef.cpp: resolveByLevel", "src/iidm/BusRef.cpp: chooseBusByLevel, resolve", "src/iidm/ConfiguredBus.cpp: getConnectedTerminals", "src/iidm/Branch.cpp: getSide, getTerminal", "src/iidm/ThreeWindingsTransformer.cpp: getSide, getTerminal", "src/iidm/NodeTerminalViews.cpp: getBus", "src/iidm/BusTerminalViews.cpp: getBus"]}
{"id": "C93", "title": "Every per-variant value of every object follows the variants", "statement": "For every class of the network (terminals of both topologies, loads, batteries, generators, shunts, static var compensators, converter stations, dangling lines with their generation, transformers with the tap changers of all their legs, HVDC lines, switches, configured buses, voltage levels, the network, and the extensions that vary) the functions that allocate, extend, reduce and delete variant elements act on every array the object has, and on each as the variant manager needs: the same array, the source given, the number given; they fail exactly when one of the arrays does. Hence, in all networks reached, every array has one element per index; a clone always succeeds and gives the targets every value that the source has, leaving the other variants as they are; a removal always succeeds and leaves all the values of the other variants. The caches of a clone are new and empty, those of the other variants are kept. The inventory of values leaves nothing out: it determines the object.", "quantifier": "for all objects of all classes, with any extensions, terminals, legs and tap changers, all indices, all histories of creations, modifications, removals, clones and removals of variants", "why_tests_cant": "Each class has its own test with a handful of variants and the attributes its author thought of; an array forgotten in one of some eighty functions shows only when that attribute is read in a variant that was recycled, overwritten or extended.", "anchors": ["src/iidm/Terminal.cpp: allocateVariantArrayElement, extendVariantArraySize, reduceVariantArraySize", "src/iidm/NodeTerminal.cpp: extendVariantArraySize", "src/iidm/BusTerminal.cpp: deleteVariantArrayElement", "src/iidm/Connectable.cpp: extendVariantArraySize", "src/iidm/Identifiable.cpp: extendVariantArraySize", "src/iidm/Generator.cpp: extendVariantArraySize", "src/iidm/ShuntCompensator.cpp: extendVariantArraySize", "src/iidm/DanglingLineGeneration.cpp: extendVariantArraySize", "src/iidm/ThreeWindingsTransformer.cpp: extendVariantArraySize", "src/iidm/ConfiguredBus.cpp: deleteVariantArrayElement", "src/iidm/VariantManager.cpp: cloneVariant, removeVariant", "include/powsybl/iidm/TapChanger.hxx: extendVariantArraySize", "include/powsybl/iidm/VariantArray.hxx: extendVariantArraySize, copy"]}
{"id": "C94", "title": "The setters keep what the adders established, and refuse only what would break it", "statement": "For every class of the network, a setter that is accepted on an object containing only what the adders accept (values set, ordered bounds, targets of an active regulation, positions among the steps, enumerators, at most one regulating tap changer per transformer, unique aliases, sorted limits) leaves it so; conversely a setter of one value throws only when the object with that value would not be so, and otherwise writes that value and nothing else. Hence a network reached by any history of setters is one that an import could have produced. Tap positions stay among the steps whatever the history, and only moving the lowest position past the range of a long is undefined.", "quantifier": "for all networks, all objects in them, all setters with all arguments (NaN and infinities included), all finite histories, accepted calls and refused ones", "why_tests_cant": "The tests call each setter once or twice on one small object, mostly with a value that is rejected; whether the check of a setter and that of the adder agree for every combination of the other attributes (regulation on or off, capabilities, NaN, infinite bounds, two tap changers) is never looked at.", "anchors": ["src/iidm/Load.cpp: setLoadType, setP0, setQ0", "src/iidm/Generator.cpp: setMaxP, setMinP, setTargetV, setVoltageRegulatorOn, setEnergySource", "src/iidm/Battery.cpp: setMaxP, setMinP", "src/iidm/VscConverterStation.cpp: setVoltageSetpoint", "src/iidm/StaticVarCompensator.cpp: setRegulationMode", "src/iidm/ShuntCompensator.cpp: setSectionCount, setVoltageRegulatorOn", "src/iidm/DanglingLineGeneration.cpp: setMaxP, setTargetQ", "src/iidm/LineCharacteristics.cpp: setR", "src/iidm/HvdcLine.cpp: setMaxP", "src/iidm/RatioTapChanger.cpp: setLoadTapChangingCapabilities, setRegulating", "src/iidm/PhaseTapChanger.cpp: setRegulationMode", "include/powsybl/iidm/TapChanger.hxx: setLowTapPosition, setRegulating", "include/powsybl/iidm/TapChangerStep.hxx: setRho", "src/iidm/VoltageLevel.cpp: setHighVoltageLimit, setLowVoltageLimit", "src/iidm/Substation.cpp: setCountry", "src/iidm/Network.cpp: setForecastDistance", "src/iidm/ValidationUtils.cpp: checkVoltageControl, checkRatioTapChangerRegulation, checkPhaseTapChangerRegulation"]}
{"id": "C95", "title": "Import, edit, export, import gives the edited network", "statement": "A network that was imported, then changed by any history of safe setters that keep aliases and places and refer to terminals of the network, still has objects that go together; if it fits in a document (no blank alias, no empty limits, no decorated bus, no empty tag, integers of their types) and its numbers are ones the text of a double keeps, it is exported, and the document is imported as exactly the network that it had become. In particular export after import is stable: exporting an imported network and importing it again gives the same network, the same objects under every name and the same regulating terminals.", "quantifier": "for all documents, all networks read from them, all finite histories of calls (refused ones included), indented documents or not, every codec of numbers that reads back the numbers of the network", "why_tests_cant": "The round trip tests start from networks built to be exported; none edits an imported network before exporting it, and the set of networks reachable by edits is infinite.", "anchors": ["src/iidm/converter/xml/NetworkXml.cpp: read", "src/iidm/converter/xml/NetworkXml.cpp: write", "src/iidm/Terminal.cpp: connect", "src/iidm/Terminal.cpp: disconnect", "src/iidm/Load.cpp: setP0", "src/iidm/Generator.cpp: setRegulatingTerminal", "src/iidm/converter/xml/TerminalRefXml.cpp: readTerminalRef"]}
{"id": "C96", "title": "An import settles the names by which objects are referred to", "statement": "In an imported network every voltage level of a branch, every station of an HVDC line and every regulating terminal is referred to by the identifier of the object, with a side if and only if the equipment has several terminals, and no generator, shunt or static var compensator refers to itself, whatever the names (identifiers or aliases), the sides and the references to itself in the document; each reference is to the object that was named, and nothing else is changed. Exporting such a network and importing it again gives the same network. After safe and quiet edits, that may name terminals in any way, the exported document is imported as the edited network, the same but for names.", "quantifier": "for all documents and networks read from them, all finite histories of safe and quiet calls, indented documents or not, every codec of numbers that reads back the numbers of the network", "why_tests_cant": "The tests export networks that were built with identifiers; a document that uses an alias, a superfluous side or a reference to the equipment itself is never exported again and compared.", "anchors": ["src/iidm/NetworkIndex.cpp: find", "include/powsybl/iidm/BranchAdder.hxx: checkAndGetVoltageLevel1", "src/iidm/ThreeWindingsTransformerLegAdder.cpp: checkAndGetVoltageLevel", "src/iidm/HvdcLineAdder.cpp: getConverterStation", "src/iidm/converter/xml/TerminalRefXml.cpp: writeTerminalRefAttribute", "src/iidm/converter/xml/HvdcLineXml.cpp: writeRootElementAttributes", "src/iidm/converter/xml/GeneratorXml.cpp: writeSubElements", "src/iidm/converter/xml/ShuntCompensatorXml.cpp: writeSubElements", "src/iidm/converter/xml/StaticVarCompensatorXml.cpp: writeSubElements"]}
{"id": "C97", "title": "An imported network whose aliases are changed and whose terminals are moved comes back as what it has become", "statement": "Adding an alias that no object has, removing an alias, moving a terminal to another bus of its voltage level and setting a regulating terminal all leave a network whose objects go together: no name is used twice, every terminal is at a place of its voltage level, no node has two terminals, every station and regulating terminal exists. This holds even if the alias that goes is the one by which the imported document referred to the object. After any history of safe calls on an imported network, refused calls included, the exported document is imported as the edited network, the same but for the names by which regulating terminals were set.", "quantifier": "for all documents and networks read from them, all finite histories of safe calls whose arguments tell the truth about the network, indented documents or not, every codec of numbers that reads back the numbers of the network", "why_tests_cant": "The tests of aliases and of moved terminals never export the network afterwards, and no test removes an alias that a document used.", "anchors": ["src/iidm/Identifiable.cpp: addAlias", "src/iidm/Identifiable.cpp: removeAlias", "src/iidm/NetworkIndex.cpp: addAlias", "src/iidm/BusTerminalViews.cpp: setConnectableBus", "src/iidm/Generator.cpp: setRegulatingTerminal", "src/iidm/converter/xml/TerminalRefXml.cpp: writeTerminalRefAttribute"]}
{"id": "C98", "title": "A network that is built with adders and setters is valid, goes together, and comes back from its document", "statement": "Each adder accepts exactly the objects that are valid (values that are set and in range, a place that is in the voltage level and free, voltage levels and stations that exist, in the substation for a transformer) with a name that nobody has, made unique if asked, and adds exactly that object, with no flow, no alias, no property and the default limits; the new object joins the others: names stay distinct, every node has at most one terminal, everything is referred to by its identifier. So a network built from nothing by any history of safe calls of adders and setters, refused calls included, is valid, and if it fits in a document it is exported and imported as it was; an imported network may grow in the same way. An adder that throws after the object is in the index leaves it without its terminal exactly when the name is accepted and the place is not. Enumerators that are none are accepted and break the network.", "quantifier": "for all networks, all arguments of the adders of substations, voltage levels, buses, switches, busbar sections, internal connections, generators, batteries, loads, shunt compensators, dangling lines, static var compensators, converter stations, transformers, lines, tie lines and HVDC lines, and all finite histories of calls", "why_tests_cant": "Tests build a few dozen fixed networks and try each check of an adder once; they do not show that no sequence of additions gives a network that cannot be exported and imported.", "anchors": ["src/iidm/LoadAdder.cpp: add", "src/iidm/GeneratorAdder.cpp: add", "src/iidm/BatteryAdder.cpp: add", "src/iidm/ShuntCompensatorAdder.cpp: add", "src/iidm/DanglingLineAdder.cpp: add", "src/iidm/StaticVarCompensatorAdder.cpp: add", "src/iidm/VscConverterStationAdder.cpp: add", "src/iidm/LccConverterStationAdder.cpp: add", "src/iidm/SwitchAdder.cpp: add", "src/iidm/BusbarSectionAdder.cpp: add", "src/iidm/VoltageLevelAdder.cpp: add", "src/iidm/SubstationAdder.cpp: add", "src/iidm/TwoWindingsTransformerAdder.cpp: add", "src/iidm/ThreeWindingsTransformerAdder.cpp: add", "src/iidm/LineAdder.cpp: add", "src/iidm/TieLineAdder.cpp: add", "src/iidm/HvdcLineAdder.cpp: add", "include/powsybl/iidm/IdentifiableAdder.hxx: checkAndGetUniqueId"]}
{"id": "C99", "title": "Removing objects from a network", "statement": "A connectable is removed exactly when it is in the network and is not a station of an HVDC line; a bus exactly when it is in its voltage level and neither a terminal nor a switch is on it; a switch exactly when it is in its voltage level; internal connections exactly when there is one between the two nodes, in either direction; all buses exactly when the voltage level has no switch and no terminal on them; a voltage level exactly when no branch ends there and no HVDC line has a station there, and it goes with what it holds and nothing else. Removing all buses, or all switches, is removing each in turn. A removal takes away exactly that object: every other one is there, unchanged and in its place, and the name is free again. The network stays valid and its objects still go together; the references of regulating terminals stay right exactly when nothing refers to the removed equipment, which the code does not check. Removing what an adder just added gives back the network as it was; for an internal connection, exactly when its nodes were not connected before. So a network made by any history of safe calls of adders, setters and removals, refused calls included, is valid and, if it fits in a document, comes back from it.", "quantifier": "for all networks, all names and nodes, all accepted calls of adders, and all finite histories of adders, setters and removals", "why_tests_cant": "Tests remove one object of each kind from a fixed network and look it up afterwards; they neither compare the rest of the network nor mix removals with additions and exports.", "anchors": ["src/iidm/Connectable.cpp: remove", "src/iidm/VoltageLevel.cpp: remove", "src/iidm/util/VoltageLevels.cpp: checkRemovability", "src/iidm/HvdcConverterStation.cpp: remove", "src/iidm/HvdcLine.cpp: remove", "src/iidm/BusBreakerVoltageLevel.cpp: removeBus", "src/iidm/BusBreakerVoltageLevel.cpp: removeSwitch", "src/iidm/BusBreakerVoltageLevel.cpp: removeAllSwitches", "src/iidm/BusBreakerVoltageLevel.cpp: removeAllBuses", "src/iidm/NodeBreakerVoltageLevel.cpp: removeSwitch", "src/iidm/NodeBreakerVoltageLevel.cpp: removeInternalConnections", "src/iidm/NetworkIndex.cpp: remove"]}
