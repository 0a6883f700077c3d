{
 "claims": [
  {
   "property": "C01",
   "status": "proved",
   "theorems": [
    "Verif.Index.history_refines",
    "Verif.Index.reachable_find_total",
    "Verif.Index.find_sound",
    "Verif.Index.find_none",
    "Verif.Index.refused_unchanged",
    "Verif.Index.add_in_use_refused",
    "Verif.Index.add_then_find",
    "Verif.Index.find_stable"
   ],
   "note": "Histories of up to 2^64-2 calls. Network::checkAndAdd called directly by a user (bypassing the adders) is not part of the histories."
  },
  {
   "property": "C02",
   "status": "proved",
   "theorems": [
    "Verif.Index.history_refines",
    "Verif.Index.addAlias_then_find",
    "Verif.Index.addAlias_in_use_refused",
    "Verif.Index.find_stable",
    "Verif.Index.remove_frees",
    "Verif.Index.remove_then_add"
   ],
   "note": "Same histories as C01."
  },
  {
   "property": "C03",
   "status": "proved",
   "theorems": [
    "Verif.UniqueId.getUniqueId_correct",
    "Verif.UniqueId.getUniqueId_fresh",
    "Verif.UniqueId.getUniqueId_nonempty",
    "Verif.UniqueId.isUniqueName_unique"
   ],
   "note": "Needs fewer names in use than the range of unsigned long."
  },
  {
   "property": "C04",
   "status": "proved",
   "theorems": [
    "Verif.Index.history_refines",
    "Verif.Index.getAll_exact",
    "Verif.Index.add_handle"
   ],
   "note": ""
  },
  {
   "property": "C05",
   "status": "partial",
   "theorems": [
    "Verif.Variants.variant_indices_distinct",
    "Verif.Variants.arrays_match_variants_partial",
    "Verif.Variants.every_variant_readable_partial",
    "Verif.Variants.failed_clone_corrupts",
    "Verif.Variants.failed_clone_then_remove_destroys",
    "Verif.Variants.slack_reduce_broken"
   ],
   "note": "The one-to-one part holds for all histories. The array part holds for all histories without a clone refused half-way and without SlackTerminal; it is false for those (witness theorems)."
  },
  {
   "property": "C06",
   "status": "proved",
   "theorems": [
    "Verif.Variants.write_isolated",
    "Verif.Variants.write_then_read"
   ],
   "note": "Isolation holds for every history, including those with failed calls."
  },
  {
   "property": "C07",
   "status": "partial",
   "theorems": [
    "Verif.Variants.clone_is_snapshot_partial",
    "Verif.Variants.clone_is_independent",
    "Verif.Variants.clone_repeated_target_ub"
   ],
   "note": "Holds for distinct targets that are new or overwritable, in states reached without half-failed calls; a repeated new target with overwriting is undefined behaviour (witness)."
  },
  {
   "property": "C08",
   "status": "partial",
   "theorems": [
    "Verif.Variants.remove_keeps_others",
    "Verif.Variants.other_thread_keeps_removed_variant"
   ],
   "note": "All parts hold in states reached without half-failed calls, except that in multi-thread mode the threads other than the caller keep the index of the removed variant (witness)."
  },
  {
   "property": "C09",
   "status": "partial",
   "theorems": [
    "Verif.Variants.refused_call_unchanged_partial",
    "Verif.Variants.clone_single_refused_iff",
    "Verif.Variants.clone_may_be_half_done"
   ],
   "note": "False for a clone whose later target exists (witness); proved for every other refused call, in particular for all single-target clones."
  },
  {
   "property": "C10",
   "status": "partial",
   "theorems": [
    "Verif.Variants.thread_keeps_its_variant_partial",
    "Verif.Variants.other_variant_writes_invisible",
    "Verif.Variants.foreign_network_moves_selection",
    "Verif.Variants.enabling_multithread_inherits"
   ],
   "note": "Proved for all interleavings of calls on one network; false when the same thread uses several networks (the index is one static thread_local variable). Data races inside lock-free getters are not modelled."
  },
  {
   "property": "C11",
   "status": "proved",
   "theorems": [
    "Verif.Variants.forEachVariant_visits_and_restores"
   ],
   "note": "The body is any function that may throw."
  },
  {
   "property": "C12",
   "status": "proved",
   "theorems": [
    "Verif.Graph.graph_refines_maps",
    "Verif.Graph.edge_persists",
    "Verif.Graph.vertex_persists",
    "Verif.Graph.counts_exact"
   ],
   "note": "All histories of all operations of UndirectedGraph."
  },
  {
   "property": "C13",
   "status": "proved",
   "theorems": [
    "Verif.Graph.adjacency_current",
    "Verif.Graph.adjacency_mem"
   ],
   "note": ""
  },
  {
   "property": "C14",
   "status": "partial",
   "theorems": [
    "Verif.Graph.edges_never_dangle",
    "Verif.Graph.removeVertex_guard",
    "Verif.Graph.removeAllVertices_guard_partial",
    "Verif.Graph.removeAllVertices_refused_without_edge"
   ],
   "note": "Edges never dangle and vertices with edges are never removed. The converse (removal allowed once no edge is left) is false for removeAllVertices, which looks at the size of the edge vector (witness)."
  },
  {
   "property": "C15",
   "status": "proved",
   "theorems": [
    "Verif.Graph.traverse_visits_reachable",
    "Verif.Graph.traverse_calls",
    "Verif.Graph.traverse_unknown",
    "Verif.Graph.traverseFrom_reachable"
   ],
   "note": "The callback is a function of its arguments (edge and the two vertices)."
  },
  {
   "property": "C16",
   "status": "proved",
   "theorems": [
    "Verif.Graph.findAllPaths_exact",
    "Verif.Graph.findAllPaths_first_shortest",
    "Verif.Graph.findAllPaths_unknown"
   ],
   "note": "For any order std::sort leaves between paths of equal length."
  },
  {
   "property": "C17",
   "status": "proved",
   "theorems": [
    "Verif.Components.components_numbered",
    "Verif.Components.components_connected",
    "Verif.Components.component_zero_largest"
   ],
   "note": "Adjacency lists whose entries are vertex numbers; connectivity part for symmetric lists (as built from graphs); any order std::sort leaves between equal sizes."
  },
  {
   "property": "C18",
   "status": "proved",
   "theorems": [
    "Verif.NodeBreaker.compute_total",
    "Verif.NodeBreaker.same_bus_iff",
    "Verif.NodeBreaker.same_bus_iff_busView",
    "Verif.NodeBreaker.bus_content",
    "Verif.NodeBreaker.bus_listed"
   ],
   "note": "All graphs reachable by graph operations, both views, any switch states. A node no switch or internal connection ends at has no bus (the computation starts from the edges): this is the OnEdge condition of same_bus_iff."
  },
  {
   "property": "C19",
   "status": "proved",
   "theorems": [
    "Verif.NodeBreaker.bus_id_least_node",
    "Verif.NodeBreaker.bus_ids_unique",
    "Verif.NodeBreaker.bus_ids_stable"
   ],
   "note": "Stable also under renumbering of the edges."
  },
  {
   "property": "C20",
   "status": "partial",
   "theorems": [
    "Verif.NodeBreaker.buses_current_partial",
    "Verif.NodeBreaker.query_answers_partial",
    "Verif.NodeBreaker.stale_after_addSwitch",
    "Verif.NodeBreaker.query_fails_after_addSwitch",
    "Verif.NodeBreaker.stale_after_removeSwitch",
    "Verif.NodeBreaker.stale_after_addInternalConnection"
   ],
   "note": "Holds for all histories in which addSwitch, removeSwitch and (in the other variants) internal connection changes happen while the caches are empty; false otherwise because these calls do not invalidate (witnesses)."
  },
  {
   "property": "C21",
   "status": "partial",
   "theorems": [
    "Verif.NodeBreaker.connect_closes_breakers",
    "Verif.NodeBreaker.connect_closes_shortest_path",
    "Verif.NodeBreaker.connect_reaches_busbar_partial",
    "Verif.NodeBreaker.connect_answers",
    "Verif.NodeBreaker.connect_stops_at_load_break_switch"
   ],
   "note": "Everything is proved for all histories except that the busbar section is reached only if no open load break switch is on the path; false otherwise (witness)."
  },
  {
   "property": "C22",
   "status": "partial",
   "theorems": [
    "Verif.NodeBreaker.disconnect_isolates",
    "Verif.NodeBreaker.disconnect_opens_breakers",
    "Verif.NodeBreaker.disconnect_refused_partial",
    "Verif.NodeBreaker.disconnect_answers",
    "Verif.NodeBreaker.disconnect_refused_but_opened"
   ],
   "note": "Isolation and opens-only-breakers hold for all histories; for a busbar section terminal its own node is left aside. The \"false changes nothing\" part holds when every path has a breaker and is false otherwise (witness)."
  },
  {
   "property": "C23",
   "status": "partial",
   "theorems": [
    "Verif.BusBreaker.merged_buses_correct",
    "Verif.BusBreaker.merged_ids",
    "Verif.BusBreaker.in_one_merged_bus",
    "Verif.BusBreaker.merged_iff_qualifies",
    "Verif.BusBreaker.merged_buses_total_partial",
    "Verif.BusBreaker.merged_buses_ub_iff",
    "Verif.BusBreaker.merged_buses_undefined"
   ],
   "note": "Whenever the computation ends normally its result is exactly the specified one. It does not end normally (out of range access) exactly when the first vertex comes after as many freed slots as there are vertices (merged_buses_ub_iff), which removing a bus can produce (witness)."
  },
  {
   "property": "C24",
   "status": "partial",
   "theorems": [
    "Verif.BusBreaker.merged_bus_current_partial",
    "Verif.BusBreaker.stale_after_addSwitch",
    "Verif.BusBreaker.stale_after_removeSwitch"
   ],
   "note": "Holds for all histories in which switches are added or removed while no variant has cached its merged buses; false otherwise because addSwitch, removeSwitch and removeAllSwitches do not invalidate (witnesses)."
  },
  {
   "property": "C25",
   "status": "partial",
   "theorems": [
    "Verif.BusBreaker.terminal_listed_where_it_refers",
    "Verif.BusBreaker.terminal_listed_once_partial",
    "Verif.BusBreaker.detach_unlists",
    "Verif.BusBreaker.move_relists",
    "Verif.BusBreaker.moved_terminal_lost"
   ],
   "note": "Full statement proved for histories that move terminals only while there is one variant; false otherwise (witness). In all histories a terminal is on at most one list, once, and on the list of the bus it refers to."
  },
  {
   "property": "C26",
   "status": "partial",
   "theorems": [
    "Verif.NodeBreaker.terminal_on_own_node",
    "Verif.NodeBreaker.attach_to_free_node",
    "Verif.NodeBreaker.attach_to_occupied_node",
    "Verif.NodeBreaker.attach_dry_run",
    "Verif.NodeBreaker.detach_frees_node",
    "Verif.NodeBreaker.occupants_kept",
    "Verif.NodeBreaker.detach_assertion_fails",
    "Verif.NodeBreaker.detach_debug_partial"
   ],
   "note": "Proved for builds without assertions. With assertions enabled, detaching a terminal whose node number is not below the number of nodes (non-contiguous numbering) aborts (witness); below it, same as without assertions."
  },
  {
   "property": "C27",
   "status": "partial",
   "theorems": [
    "Verif.Removal.node_refused",
    "Verif.Removal.node_removed_partial",
    "Verif.Removal.node_internal",
    "Verif.Removal.node_undefined_iff",
    "Verif.Removal.node_ok_iff",
    "Verif.Removal.bus_refused",
    "Verif.Removal.bus_removed_partial",
    "Verif.Removal.bus_undefined_iff",
    "Verif.Removal.substation_never",
    "Verif.Removal.substation_empty",
    "Verif.Removal.unlinked_node_undefined",
    "Verif.Removal.internal_connection_half_removed",
    "Verif.Removal.bus_with_load_undefined",
    "Verif.Removal.substation_undefined"
   ],
   "note": "Refusals leave everything unchanged. Removal is exact when it succeeds. False otherwise: removing a bus/breaker voltage level that has any equipment, a node/breaker one whose last node is not linked, and any substation with a voltage level uses invalid iterators; with an internal connection the removal throws half-way (witnesses, exactly characterised)."
  },
  {
   "property": "C28",
   "status": "partial",
   "theorems": [
    "Verif.Hvdc.linked_is_end_partial",
    "Verif.Hvdc.linked_iff_partial",
    "Verif.Hvdc.removal_refused_iff_partial",
    "Verif.Hvdc.removeLine_frees_partial",
    "Verif.Hvdc.findHvdcLine_agrees_partial",
    "Verif.Hvdc.addLine_spec",
    "Verif.Hvdc.in_use_but_free",
    "Verif.Hvdc.in_use_removed"
   ],
   "note": "A linked station is an end of its line after every history. The converse needs that lines are added only between stations not in use, which the adder does not check; otherwise a station in use can be removed and removing the line is undefined behaviour (witness)."
  },
  {
   "property": "C29",
   "status": "partial",
   "theorems": [
    "Verif.Adders.injection_all_or_nothing_partial",
    "Verif.Adders.multi_all_or_nothing_partial",
    "Verif.Adders.injection_leftover_iff",
    "Verif.Adders.multi_leftover_iff",
    "Verif.Adders.not_fits_iff",
    "Verif.Adders.injection_added",
    "Verif.Adders.multi_added",
    "Verif.Adders.injection_refused",
    "Verif.Adders.others_all_or_nothing",
    "Verif.Adders.multi_not_ub",
    "Verif.Adders.listed_is_owned",
    "Verif.Adders.found_is_attached_partial",
    "Verif.Adders.removal_works_partial",
    "Verif.Adders.leftover_forever",
    "Verif.Adders.occupied_node_leaves",
    "Verif.Adders.unknown_bus_leaves",
    "Verif.Adders.no_terminal_leaves",
    "Verif.Adders.line_half_attached",
    "Verif.Adders.leftover_detaches_other",
    "Verif.Adders.removal_keeps_nodes"
   ],
   "note": "False: an equipment whose terminal is refused after its insertion in the index stays in the network (exactly characterised, witnesses). All or nothing proved when terminals fit, and then every equipment found is attached and removable."
  },
  {
   "property": "C30",
   "status": "partial",
   "theorems": [
    "Verif.Tap.getStep_ok_iff",
    "Verif.Tap.getStep_no_ub",
    "Verif.Tap.rtc_position_on_range_partial",
    "Verif.Tap.ptc_position_on_range_partial",
    "Verif.Tap.setTapPosition_spec",
    "Verif.Tap.setLowTapPosition_keeps_step",
    "Verif.Tap.setLowTapPosition_breaks_other_variant",
    "Verif.Tap.setLowTapPosition_changes_other_step"
   ],
   "note": "Proved for all histories in which setLowTapPosition keeps the position of every variant on the range; false otherwise: setLowTapPosition shifts the position of the working variant only (witnesses)."
  },
  {
   "property": "C31",
   "status": "partial",
   "theorems": [
    "Verif.Tap.rtc_deadband",
    "Verif.Tap.rtc_regulation_partial",
    "Verif.Tap.rtc_setRegulating_iff",
    "Verif.Tap.rtc_refused_unchanged",
    "Verif.Tap.rtc_capability_unchecked",
    "Verif.Tap.rtc_terminal_removed_in_other_variant"
   ],
   "note": "The deadband part holds for all histories. The rest is proved for histories in which the capability and the regulation terminal are changed only when consistent with every variant; false otherwise (witnesses)."
  },
  {
   "property": "C32",
   "status": "partial",
   "theorems": [
    "Verif.Tap.ptc_regulation_partial",
    "Verif.Tap.ptc_terminal_in_network",
    "Verif.Tap.ptc_deadband",
    "Verif.Tap.ptc_setRegulating_unchecked",
    "Verif.Tap.ptc_mode_changed_in_other_variant"
   ],
   "note": "Proved for histories that switch regulation on only when the settings allow it and change shared settings only when consistent with every variant; false otherwise: setRegulating is unchecked (witnesses). The terminal, when set, is always one of the network."
  },
  {
   "property": "C33",
   "status": "partial",
   "theorems": [
    "Verif.Tap.at_most_one_regulating_partial",
    "Verif.Tap.add_exactly_one",
    "Verif.Tap.install_spec",
    "Verif.Tap.two_regulating_by_setter",
    "Verif.Tap.two_regulating_by_adder"
   ],
   "note": "Proved for histories in which regulation is switched on through setters only when no other tap changer regulates; false otherwise (witnesses)."
  },
  {
   "property": "C34",
   "status": "partial",
   "theorems": [
    "Verif.Setpoint.generator_setpoints_usable",
    "Verif.Setpoint.generation_setpoints_usable",
    "Verif.Setpoint.vsc_setpoints_usable",
    "Verif.Setpoint.svc_setpoints_set_partial",
    "Verif.Setpoint.setOn_ok_iff",
    "Verif.Setpoint.svc_nonpositive_voltage"
   ],
   "note": "Full statement for generators, generation of dangling lines and VSC stations. For static VAR compensators the set-points are set but the voltage set-point may be zero or negative (witness)."
  },
  {
   "property": "C35",
   "status": "partial",
   "theorems": [
    "Verif.Setpoint.generator_range",
    "Verif.Setpoint.battery_range",
    "Verif.Setpoint.generation_range_partial",
    "Verif.Setpoint.voltage_limits_ordered",
    "Verif.Setpoint.gen_refused_unchanged",
    "Verif.Setpoint.vl_refused_unchanged",
    "Verif.Setpoint.battery_refused_unchanged",
    "Verif.Setpoint.setMinP_accepts",
    "Verif.Setpoint.setMaxP_accepts",
    "Verif.Setpoint.generation_range_inverted"
   ],
   "note": "Full statement for generators, batteries and voltage limits. For generation of dangling lines a range with an unset bound and an infinite one is inverted (witness); proved for the other values."
  },
  {
   "property": "C36",
   "status": "partial",
   "theorems": [
    "Verif.Shunt.sections_within_partial",
    "Verif.Shunt.reading_succeeds_partial",
    "Verif.Shunt.getB_ok_iff",
    "Verif.Shunt.getG_ok_iff",
    "Verif.Shunt.get_no_ub",
    "Verif.Shunt.linear_proportional",
    "Verif.Shunt.nonLinear_values",
    "Verif.Shunt.zero_section",
    "Verif.Shunt.maximum_positive",
    "Verif.Shunt.setSectionCount_spec",
    "Verif.Shunt.nonLinear_build_sections",
    "Verif.Shunt.setMaximumSectionCount_breaks_other_variant",
    "Verif.Shunt.zero_section_infinite",
    "Verif.Shunt.section_setters_always_throw"
   ],
   "note": "Proved for histories in which the maximum of a linear model is not lowered below the sections of another variant; false otherwise (witness). Zero section is zero for non infinite values per section (witness for infinite ones). Products are exact (rounding not modelled)."
  },
  {
   "property": "C37",
   "status": "partial",
   "theorems": [
    "Verif.Curve.at_points",
    "Verif.Curve.below_range",
    "Verif.Curve.above_range",
    "Verif.Curve.inside_range_partial",
    "Verif.Curve.never_inverted_partial",
    "Verif.Curve.reading_total",
    "Verif.Curve.build_spec",
    "Verif.Curve.build_accepts_iff",
    "Verif.Curve.p_range",
    "Verif.Curve.minMax_ok_iff",
    "Verif.Curve.infinite_point_nan",
    "Verif.Curve.inverted_point_accepted"
   ],
   "note": "At the points and outside the range for every curve. Inside the range and for the order of the bounds: values per point not infinite; with infinite values the result is NaN (witness). Arithmetic is exact (rounding not modelled)."
  },
  {
   "property": "C38",
   "status": "partial",
   "theorems": [
    "Verif.Limits.limits_kept_partial",
    "Verif.Limits.limits_ordered",
    "Verif.Limits.limits_origin",
    "Verif.Limits.durations_kept",
    "Verif.Limits.lookup_by_duration",
    "Verif.Limits.end_accepts_iff",
    "Verif.Limits.add_accepts_iff",
    "Verif.Limits.unique_name_spec",
    "Verif.Limits.permanent_positive",
    "Verif.Limits.duplicate_duration_dropped"
   ],
   "note": "Order, names, lookups and origin hold for every sequence of adder calls. Every limit is kept when durations are distinct; a second limit with the same duration is dropped silently (witness)."
  },
  {
   "property": "C39",
   "status": "partial",
   "theorems": [
    "Verif.Limits.overload_sound",
    "Verif.Limits.overload_reported_partial",
    "Verif.Limits.overload_implies_permanent",
    "Verif.Limits.overloaded_iff",
    "Verif.Limits.overloadDuration_spec",
    "Verif.Limits.beyond_last_limit_unreported",
    "Verif.Limits.overload_below_permanent"
   ],
   "note": "Interval and branch parts hold for every value. An overload is reported exactly when some temporary limit is above the current; nothing is reported beyond the last limit (witness). Arithmetic is exact."
  },
  {
   "property": "C40",
   "status": "partial",
   "theorems": [
    "Verif.Flow.getI_right_iff_partial",
    "Verif.Flow.getI_busbar_partial",
    "Verif.Flow.getI_wrong",
    "Verif.Flow.getI_disconnected"
   ],
   "note": "False: the code multiplies by the voltage; exactly when the result is right is proved. A disconnected terminal gives NaN instead of 0."
  },
  {
   "property": "C41",
   "status": "proved",
   "theorems": [
    "Verif.Flow.come_back",
    "Verif.Flow.come_back_adm",
    "Verif.Flow.come_back_adm_exact",
    "Verif.Flow.otherSide_defined",
    "Verif.Flow.no_impedance",
    "Verif.Flow.parts_agree",
    "Verif.Flow.transformer_come_back"
   ],
   "note": "Over exact reals (rounding not modelled). The angle comes back up to whole turns, exactly when within (-180, 180]; the voltage found at the other side must not be zero."
  },
  {
   "property": "C42",
   "status": "proved",
   "theorems": [
    "Verif.Anonymizer.names_reversible",
    "Verif.Anonymizer.name_by_rank",
    "Verif.Anonymizer.getAlpha_injective",
    "Verif.Anonymizer.getAlpha_nonempty",
    "Verif.Anonymizer.deanonymize_unknown"
   ],
   "note": "For every sequence of strings anonymised from a new anonymiser."
  },
  {
   "property": "C43",
   "status": "partial",
   "theorems": [
    "Verif.Anonymizer.file_round_trip_partial",
    "Verif.Anonymizer.answers_perm",
    "Verif.Anonymizer.semicolon_breaks_file",
    "Verif.Anonymizer.newline_breaks_file",
    "Verif.Anonymizer.foreign_mapping_collides"
   ],
   "note": "Proved for strings without semicolon and end of line; with them the file cannot be read back or is read back as another mapping (witnesses)."
  },
  {
   "property": "C44",
   "status": "partial",
   "theorems": [
    "Verif.Xml.order_is_release_order",
    "Verif.Xml.order_total",
    "Verif.Xml.parse_inverts_format",
    "Verif.Xml.namespace_accepted_iff",
    "Verif.Xml.namespace_round_trip",
    "Verif.Xml.attribute_from_version",
    "Verif.Xml.writer_assertions",
    "Verif.Xml.conditional_parts",
    "Verif.Xml.reader_assertions",
    "Verif.Xml.guarded_part_partial",
    "Verif.Xml.logged_but_written",
    "Verif.Xml.nonLinear_reported",
    "Verif.Xml.regulating_reported",
    "Verif.Xml.shunt_conductance_lost",
    "Verif.Xml.fictitious_lost",
    "Verif.Xml.aliases_lost",
    "Verif.Xml.alias_types_lost",
    "Verif.Xml.network_aliases_reported"
   ],
   "note": "Order, namespaces and the helpers hold for every version and value. False: the conductance of a linear shunt (before 1.3), the fictitious flag (before 1.2), aliases (before 1.3) and their types (in 1.3) are dropped without report, and the helper assertMinimumVersionAndRunIfNotDefault writes what it has just logged as not supported (witnesses, for every value)."
  },
  {
   "property": "C45",
   "status": "partial",
   "theorems": [
    "Verif.Xml.limits_round_trip_partial",
    "Verif.Xml.built_limits_wf",
    "Verif.Xml.empty_limits_lost",
    "Verif.Xml.curve_round_trip",
    "Verif.Xml.minMax_round_trip",
    "Verif.Xml.shunt_round_trip",
    "Verif.Xml.built_shunt_wf",
    "Verif.Xml.shunt_old_round_trip_partial",
    "Verif.Xml.simple_inverts",
    "Verif.Xml.head_round_trip",
    "Verif.Xml.node_switch_round_trip",
    "Verif.Xml.bus_switch_round_trip_partial",
    "Verif.Xml.bus_switch_kind_lost",
    "Verif.Xml.connection_round_trip",
    "Verif.Xml.aliases_properties_round_trip_partial",
    "Verif.Xml.properties_old_round_trip",
    "Verif.Xml.blank_alias_unreadable",
    "Verif.Xml.toy_exact",
    "Verif.Xml.toy_naturals",
    "Verif.Xml.readUntilEnd_not_ub"
   ],
   "note": "For every value that std::stod reads back (all but subnormal doubles). False: limits without permanent and temporary limit are not written, the kind of a switch is not read at the bus/breaker level, an alias of white space makes the file unreadable (witnesses). libxml2 is trusted to give back the nodes and values written."
  },
  {
   "property": "C46",
   "status": "proved",
   "theorems": [
    "Verif.Xml.terminal_ref_round_trip",
    "Verif.Xml.ref_written_iff",
    "Verif.Xml.unreferable_refused",
    "Verif.Xml.regulating_written",
    "Verif.Xml.regulating_reported"
   ],
   "note": "For every equipment class, side, anonymizer that gives back the identifier, and every network read that satisfies the invariant of the index (C01) and has the equipment."
  },
  {
   "property": "C47",
   "status": "proved",
   "theorems": [
    "Verif.Enums.value_round_trip",
    "Verif.Enums.name_round_trip",
    "Verif.Enums.fromString_accepts_iff",
    "Verif.Enums.toString_total",
    "Verif.Enums.tables_distinct"
   ],
   "note": "For every table of distinct names and every string; every table of the repository has distinct names (tables transcribed by script)."
  },
  {
   "property": "C48",
   "status": "proved",
   "theorems": [
    "Verif.PropMap.properties_are_a_map",
    "Verif.PropMap.set_returns_previous"
   ],
   "note": ""
  },
  {
   "property": "C49",
   "status": "partial",
   "theorems": [
    "Verif.Extend.lookups_agree_partial",
    "Verif.Extend.library_names_distinct",
    "Verif.Extend.shared_name_dangles",
    "Verif.Extend.shared_type_disagrees",
    "Verif.Extend.refused_addition_loses"
   ],
   "note": "Proved for extensions whose types and names correspond one to one, as those of the repository; otherwise a lookup may use a destroyed extension (witness)."
  },
  {
   "property": "C50",
   "status": "partial",
   "theorems": [
    "Verif.Listing.listing_once_partial",
    "Verif.Listing.count_spec",
    "Verif.Listing.later_iterations",
    "Verif.Listing.same_again_iff",
    "Verif.Listing.flattened_elements",
    "Verif.Listing.substation_listing_once_partial",
    "Verif.Listing.second_iteration_loses"
   ],
   "note": "The first iteration is as specified. Every later iteration over the same range gives the first element only (later_iterations), because the predicate remembers the ids."
  },
  {
   "property": "C51",
   "status": "proved",
   "theorems": [
    "Verif.Finder.find_best",
    "Verif.Finder.find_unique",
    "Verif.Finder.findWith_best",
    "Verif.Finder.default_rules_order",
    "Verif.Finder.comparator_iff"
   ],
   "note": ""
  },
  {
   "property": "C52",
   "status": "partial",
   "theorems": [
    "Verif.Convert.readString_spec",
    "Verif.Convert.readBoolean_spec",
    "Verif.Convert.iequals_spec",
    "Verif.Convert.readDouble_spec",
    "Verif.Convert.readStringList_spec",
    "Verif.Convert.selection_partial",
    "Verif.Convert.hasAtLeastOne_partial",
    "Verif.Convert.addVersion_spec",
    "Verif.Convert.addExtension_spec",
    "Verif.Convert.empty_value_selects_nothing",
    "Verif.Convert.no_extension_reported"
   ],
   "note": "Reading parameters as specified. An empty value for the list of extensions selects none though the default, the empty string, selects all (witness); an object without extension is reported as having one (witness)."
  },
  {
   "property": "C53",
   "status": "proved",
   "theorems": [
    "Verif.NodeBreaker.nodes_by_bus_exact",
    "Verif.NodeBreaker.nodes_by_bus_disjoint",
    "Verif.NodeBreaker.equivalentTerminal_spec"
   ],
   "note": "For current bus view caches (see C20)."
  },
  {
   "property": "C54",
   "status": "partial",
   "theorems": [
    "Verif.NetComponents.compute_right",
    "Verif.NetComponents.synchronous_right",
    "Verif.NetComponents.connected_right_partial",
    "Verif.NetComponents.synchronous_refines",
    "Verif.NetComponents.stale_after_hvdc_added",
    "Verif.NetComponents.stale_after_hvdc_removed"
   ],
   "note": "Every computation is right whatever the order std::sort chooses; synchronous components are right after every history. False for connected components: adding or removing an HVDC line does not invalidate them (witnesses)."
  },
  {
   "property": "C55",
   "status": "proved",
   "theorems": [
    "Verif.Adders.terminal_spec",
    "Verif.Adders.terminal_refused",
    "Verif.Adders.wanted_unique",
    "Verif.Adders.injection_ok_iff",
    "Verif.Adders.fit_iff"
   ],
   "note": ""
  },
  {
   "property": "C56",
   "status": "partial",
   "theorems": [
    "Verif.Move.index_move_partial",
    "Verif.Move.index_move_same_iff_partial",
    "Verif.Move.index_move_listing",
    "Verif.Move.variants_move_partial",
    "Verif.Move.variants_move_cases",
    "Verif.Move.variants_move_undefined",
    "Verif.Move.alias_lost",
    "Verif.Move.alias_taken_twice",
    "Verif.Move.removed_variant_undefined",
    "Verif.Extend.move_iff_partial",
    "Verif.Extend.move_with_extension_terminates"
   ],
   "note": "Ids and listings are kept. False: aliases are lost, an extension of the network ends the program, and a variant removed before is a null pointer that is dereferenced (witnesses)."
  },
  {
   "property": "C57",
   "status": "proved",
   "theorems": [
    "Verif.Shunt.shunt_regulation_usable",
    "Verif.Shunt.setVoltageRegulatorOn_iff"
   ],
   "note": ""
  },
  {
   "property": "C58",
   "status": "partial",
   "theorems": [
    "Verif.Enums.names_are_identifiers_partial",
    "Verif.Enums.hvdc_type_names_swapped"
   ],
   "note": "False for the types of HVDC converter stations, whose names are swapped (witness); true for all other enumerations."
  },
  {
   "property": "C59",
   "status": "proved",
   "theorems": [
    "Verif.Flow.circuit",
    "Verif.Flow.flows_are_powers",
    "Verif.Flow.power_balance",
    "Verif.Flow.lossless",
    "Verif.Flow.losses_nonneg",
    "Verif.Flow.transformer_without_tap_changers",
    "Verif.Flow.transformer_effective",
    "Verif.Flow.dangling_effective"
   ],
   "note": "Over exact reals (rounding not modelled)."
  },
  {
   "property": "C60",
   "status": "partial",
   "theorems": [
    "Verif.Setpoint.generator_stores",
    "Verif.Setpoint.vsc_stores",
    "Verif.Setpoint.svc_stores",
    "Verif.Setpoint.battery_stores",
    "Verif.Setpoint.voltage_limits_stores",
    "Verif.Setpoint.adders_store",
    "Verif.Tap.rtc_stores",
    "Verif.Tap.ptc_stores",
    "Verif.Tap.adders_store",
    "Verif.Tap.setLowTapPosition_refused_but_stored",
    "Verif.Shunt.shunt_stores",
    "Verif.Shunt.adders_store"
   ],
   "note": "Holds with a working variant. False without one: setLowTapPosition throws after moving the range (witness)."
  },
  {
   "property": "C61",
   "status": "partial",
   "theorems": [
    "Verif.NetBuses.busView_lookup",
    "Verif.NetBuses.busBreakerView_lookup_partial",
    "Verif.NetBuses.busBreakerView_destroyed",
    "Verif.NetBuses.busBreakerView_missed",
    "Verif.NetBuses.bus_needs_terminal"
   ],
   "note": "Proved for the bus view after every history. False for the bus/breaker view: invalidating it invalidates the cache of the bus view instead, so a lookup after a change of a node/breaker voltage level gives a destroyed bus or misses a new one (witnesses); right while no such change happens."
  },
  {
   "property": "C62",
   "status": "partial",
   "theorems": [
    "Verif.NodeBreaker.connectable_bus_partial",
    "Verif.NodeBreaker.connectable_bus_keeps",
    "Verif.NodeBreaker.connectable_bus_unknown_partial",
    "Verif.NodeBreaker.connectable_fails_after_addSwitch"
   ],
   "note": "Proved after every history whose caches are current. False otherwise: addSwitch leaves the caches, and the connectable bus of a node created after a query throws std::out_of_range (witness)."
  },
  {
   "property": "C63",
   "status": "proved",
   "theorems": [
    "Verif.NodeBreaker.switch_found",
    "Verif.NodeBreaker.switches_change",
    "Verif.NodeBreaker.switch_unique",
    "Verif.NodeBreaker.switch_terminals",
    "Verif.NodeBreaker.retained_switch_found",
    "Verif.NodeBreaker.retained_switch_buses"
   ],
   "note": "For every history of calls with switch ids not yet in use, which the network index guarantees (C01)."
  },
  {
   "property": "C64",
   "status": "partial",
   "theorems": [
    "Verif.NodeBreaker.switch_listing",
    "Verif.NodeBreaker.retained_switch_listing",
    "Verif.NodeBreaker.internal_connection_listing",
    "Verif.NodeBreaker.maximum_node",
    "Verif.NodeBreaker.terminal_of_node",
    "Verif.NodeBreaker.terminal_listing",
    "Verif.NodeBreaker.attached_without_equipment",
    "Verif.NodeBreaker.attached_equipment_partial"
   ],
   "note": "Listings, counts and the maximum node proved after every history. False: hasAttachedEquipment only asks whether the node exists, so it is true of a node with a switch end only (witness)."
  },
  {
   "property": "C65",
   "status": "proved",
   "theorems": [
    "Verif.Traverse.traverse_ends"
   ],
   "note": "For every well-formed network, every traverser (its answers may depend on all previous questions) and every order of the sets of terminals."
  },
  {
   "property": "C66",
   "status": "partial",
   "theorems": [
    "Verif.Traverse.traverse_exact_partial",
    "Verif.Traverse.bus_terminals_missed",
    "Verif.Traverse.terminal_accepted_twice"
   ],
   "note": "Proved for networks of node/breaker voltage levels. False with bus/breaker voltage levels: only the first terminal of a bus behind a switch is asked about, and the accepted terminals of the first bus are not noted, so that one of two parallel lines is asked about twice (witnesses)."
  },
  {
   "property": "C67",
   "status": "partial",
   "theorems": [
    "Verif.XmlNet.load_round_trip",
    "Verif.XmlNet.generator_round_trip",
    "Verif.XmlNet.battery_round_trip",
    "Verif.XmlNet.busbar_section_round_trip",
    "Verif.XmlNet.lcc_round_trip",
    "Verif.XmlNet.vsc_round_trip",
    "Verif.XmlNet.svc_round_trip",
    "Verif.XmlNet.shunt_element_round_trip",
    "Verif.XmlNet.dangling_line_round_trip"
   ],
   "note": "For every equipment with the invariants of its adder and any exact codec of numbers. Missing: loading limits without any value, which are not written (Xml.empty_limits_lost); places that need the rest of the network are checked on admission, not here."
  },
  {
   "property": "C68",
   "status": "partial",
   "theorems": [
    "Verif.XmlNet.line_round_trip",
    "Verif.XmlNet.tie_line_round_trip",
    "Verif.XmlNet.hvdc_line_round_trip",
    "Verif.XmlNet.two_windings_transformer_round_trip",
    "Verif.XmlNet.three_windings_transformer_round_trip",
    "Verif.XmlNet.large_node_unreadable"
   ],
   "note": "For every equipment with the invariants of its adders and any exact codec of numbers. Missing: loading limits without any value, which are not written; nodes of lines and two windings transformers that an int cannot hold, which are written and cannot be read (large_node_unreadable)."
  },
  {
   "property": "C69",
   "status": "partial",
   "theorems": [
    "Verif.XmlNet.readLoad_valid",
    "Verif.XmlNet.readGen_valid",
    "Verif.XmlNet.readBat_valid",
    "Verif.XmlNet.readLcc_valid",
    "Verif.XmlNet.readVsc_valid",
    "Verif.XmlNet.readSvc_valid",
    "Verif.XmlNet.readSh_valid",
    "Verif.XmlNet.readDl_valid",
    "Verif.XmlNet.readLine_valid",
    "Verif.XmlNet.readTie_valid",
    "Verif.XmlNet.readHvdc_valid",
    "Verif.XmlNet.readRtc_valid",
    "Verif.XmlNet.readPtc_valid",
    "Verif.XmlNet.readTw2_valid",
    "Verif.XmlNet.readTw3_valid",
    "Verif.XmlNet.empty_generation_range"
   ],
   "note": "For any nodes, codec and anonymizer (for dangling lines, the codec reads doubles). Exception proved: the generation of a dangling line may have an empty range when one bound is infinite and the other is missing (empty_generation_range). Tap positions are only bounded when the last position fits a 64-bit integer."
  },
  {
   "property": "C70",
   "status": "partial",
   "theorems": [
    "Verif.XmlNet.bus_round_trip_partial",
    "Verif.XmlNet.decorated_bus_unreadable",
    "Verif.XmlNet.node_switch_element_round_trip",
    "Verif.XmlNet.bus_switch_element_round_trip",
    "Verif.XmlNet.conn_ert",
    "Verif.XmlNet.calc_ert",
    "Verif.XmlNet.calculated_voltages_restored",
    "Verif.XmlNet.voltage_level_round_trip_partial",
    "Verif.XmlNet.anonymized_switch_unwritable",
    "Verif.XmlNet.substation_round_trip_partial",
    "Verif.XmlNet.tag_with_comma_split",
    "Verif.XmlNet.empty_tag_lost"
   ],
   "note": "Proved but for what the code loses: buses with aliases or properties cannot be read, the switches of an anonymized bus/breaker voltage level cannot be written, tags with commas are split and a single empty tag is lost (each is a theorem). The grouping of nodes by calculated bus is a hypothesis on the bus of each terminal."
  },
  {
   "property": "C71",
   "status": "partial",
   "theorems": [
    "Verif.XmlNet.network_round_trip_partial",
    "Verif.XmlNet.someNet_read",
    "Verif.XmlNet.documents_differ",
    "Verif.XmlNet.network_fictitious_lost",
    "Verif.XmlNet.read_network_valid",
    "Verif.XmlNet.readVL_valid",
    "Verif.XmlNet.readSubstation_valid"
   ],
   "note": "Proved but for what is lost: the fictitious flag of the network is not written (network_fictitious_lost), and what C68 and C70 lose. Extensions and headers of the file are not modelled; versions before 1.5 are in C86, C87 and C88; the dates are a parameter with an exact round trip. read_network_valid needs a codec that reads doubles."
  },
  {
   "property": "C72",
   "status": "partial",
   "theorems": [
    "Verif.XmlNet.mem_netItems",
    "Verif.XmlNet.mem_netRefs",
    "Verif.XmlNet.run_iff",
    "Verif.XmlNet.accept_iff",
    "Verif.XmlNet.accept_result",
    "Verif.XmlNet.import_iff",
    "Verif.XmlNet.imported_network",
    "Verif.XmlNet.import_export_partial",
    "Verif.XmlNet.goodNet_accepted",
    "Verif.XmlNet.goodNet_consistent",
    "Verif.XmlNet.accept_defined"
   ],
   "note": "Equivalence proved for every network with valid identifiables, hence for every network that is read. The elements are taken in the order of an exported document: a document in another order may be refused by the code. import_export_partial has the conditions of C71. Extensions are not modelled. A network keeps here the names by which the document refers to voltage levels, stations and terminals, where the code keeps references and writes identifiers: for documents that use aliases, superfluous sides or references to the equipment itself, what is exported is given by C96."
  },
  {
   "property": "C73",
   "status": "partial",
   "theorems": [
    "Verif.XmlNet.anonymous_document_partial",
    "Verif.XmlNet.anonymous_documents_iff",
    "Verif.XmlNet.anonymous_read_partial",
    "Verif.XmlNet.anonymous_import_partial",
    "Verif.XmlNet.anonymous_hvdc_refused",
    "Verif.XmlNet.hvdc_stations_revealed"
   ],
   "note": "The identifiers of the converter stations of HVDC lines are written as they are and read without being translated: they are revealed, and an anonymized document with an HVDC line cannot be imported without the file of the names (`hvdc_stations_revealed`, `anonymous_hvdc_refused`).  The identifier of the network, properties, UCTE codes, names of limits and countries are not replaced either: `Net.renamed` leaves them.  Version 1.5, full level of topology, without extensions."
  },
  {
   "property": "C74",
   "status": "partial",
   "theorems": [
    "Verif.Flow.boundary_one",
    "Verif.Flow.boundary_two",
    "Verif.Flow.boundaries_match_iff",
    "Verif.Flow.boundary_dangling",
    "Verif.Flow.boundary_unknown",
    "Verif.Flow.boundary_without_impedance"
   ],
   "note": "Over exact reals (rounding not modelled), for lines with an impedance and a terminal whose voltage is not zero. False without impedance: the boundary of such a half line shows no finite value (witness)."
  },
  {
   "property": "C75",
   "status": "partial",
   "theorems": [
    "Verif.Flow.tie_sum_iff_partial",
    "Verif.Flow.usual_tie_line_wrong"
   ],
   "note": "True exactly when the halves have no shunt admittance at the boundary (tie_sum_iff_partial); false for the usual halves, whose susceptance is at both ends (witness). Over exact reals."
  },
  {
   "property": "C76",
   "status": "partial",
   "theorems": [
    "Verif.Measure.measurements_good",
    "Verif.Measure.measurements_register",
    "Verif.Measure.measurement_added_iff",
    "Verif.Measure.measurement_returned_iff",
    "Verif.Measure.measurement_written",
    "Verif.Measure.property_put",
    "Verif.Measure.measurement_found_iff",
    "Verif.Measure.measurements_listed",
    "Verif.Measure.measurements_listed_late",
    "Verif.Measure.valid_has_value_partial",
    "Verif.Measure.returns_another",
    "Verif.Measure.set_valid_unchecked",
    "Verif.Measure.set_value_unchecked",
    "Verif.Measure.third_side_of_line",
    "Verif.Measure.listed_in_loop"
   ],
   "note": "False in the code: the reference returned is that of another measurement when both have no identifier; setValid and setValue check nothing, so that a valid measurement has a value only when they are used with care; a line accepts a side THREE; a listing gone through after the end of its expression reads a dangling reference. Each has a witness; the rest is proved for all sequences of calls."
  },
  {
   "property": "C77",
   "status": "partial",
   "theorems": [
    "Verif.Measure.discrete_good",
    "Verif.Measure.discrete_register",
    "Verif.Measure.discrete_read_iff",
    "Verif.Measure.discrete_written",
    "Verif.Measure.discrete_added_iff",
    "Verif.Measure.discrete_found_iff",
    "Verif.Measure.discrete_listed",
    "Verif.Measure.discrete_without_type",
    "Verif.Measure.invalid_without_value",
    "Verif.Measure.empty_string_accepted",
    "Verif.Measure.discrete_returns_another"
   ],
   "note": "False in the code: an adder without type is undefined behaviour, the reference returned may be that of another one without identifier, an invalid measurement without value is refused, the empty string is accepted on a valid one (witnesses)."
  },
  {
   "property": "C78",
   "status": "partial",
   "theorems": [
    "Verif.ExtData.adder_holds_given",
    "Verif.ExtData.extension_added_iff",
    "Verif.ExtData.extension_added_values",
    "Verif.ExtData.extension_values_partial",
    "Verif.ExtData.extension_values_kept_partial",
    "Verif.ExtData.calls_defined",
    "Verif.ExtData.add_defined",
    "Verif.ExtData.setter_writes",
    "Verif.ExtData.setter_refuses_partial",
    "Verif.ExtData.setter_without_feeder",
    "Verif.ExtData.setter_exists_iff",
    "Verif.ExtData.empty_feeder_name"
   ],
   "note": "False in the code: Feeder::setName accepts the empty name that FeederAdder refuses (witness empty_feeder_name); everything else is proved for all sequences of calls. The droop of ActivePowerControl is not checked, and is read back only if it is a number."
  },
  {
   "property": "C79",
   "status": "partial",
   "theorems": [
    "Verif.ExtXml.extension_round_trip_partial",
    "Verif.ExtXml.measurements_round_trip_partial",
    "Verif.ExtXml.discrete_round_trip_partial",
    "Verif.ExtXml.detail_former_names",
    "Verif.ExtXml.kind_of_class",
    "Verif.ExtXml.enumerator_names",
    "Verif.ExtXml.merged_names_lost",
    "Verif.ExtXml.droop_unreadable",
    "Verif.ExtXml.feeder_unreadable",
    "Verif.ExtXml.slack_unreadable",
    "Verif.ExtXml.measurement_unreadable",
    "Verif.ExtXml.empty_string_unreadable"
   ],
   "note": "False in the code: the names of the lines of a merged node are not written; a droop that is NaN, a feeder without name, a slack terminal without terminal, a valid measurement whose value is NaN and a discrete measurement whose value is the empty string are written but then refused (witnesses); everything else is read back, for all sequences of calls. RemoteReactivePowerControl has no serializer. Only the values of the working variant are written."
  },
  {
   "property": "C80",
   "status": "partial",
   "theorems": [
    "Verif.ExtNet.library_network",
    "Verif.ExtNet.library_written_iff",
    "Verif.ExtNet.library_namespaces",
    "Verif.ExtNet.namespaces_iff",
    "Verif.ExtNet.section_written_iff",
    "Verif.ExtNet.netX_written_iff",
    "Verif.ExtNet.network_extensions_round_trip_partial",
    "Verif.ExtNet.refused_extension",
    "Verif.ExtNet.missing_serializer",
    "Verif.ExtNet.version_added",
    "Verif.ExtNet.remote_control_fails_export",
    "Verif.ExtNet.declined_extension_fails_export",
    "Verif.ExtNet.slack_fails_old_versions",
    "Verif.ExtNet.strict_export_unreadable"
   ],
   "note": "False in the code: an extension that has no serializer, or that its serializer declines, is not left out but makes the whole export fail with the default options; a slack terminal makes the export to the versions 1.0 to 1.2 fail; with the option to throw, declined extensions are written and the document cannot be read (witnesses). Proved for any serializers and for those of the repository: exactly when the export succeeds, exactly when the document is accepted, and which extensions the objects then get. The hypotheses on the network are those of C71, on the extensions those of C79."
  },
  {
   "property": "C81",
   "status": "partial",
   "theorems": [
    "Verif.Slack.slack_after_calls_partial",
    "Verif.Slack.step_unique",
    "Verif.Slack.clean_without_removal",
    "Verif.Slack.slack_in_its_level_partial",
    "Verif.Slack.calls_defined_partial",
    "Verif.Slack.attach_only_its_level",
    "Verif.Slack.reset_clears_working_variant",
    "Verif.Slack.remove_last_reads",
    "Verif.Slack.returned_reference_dangles_iff",
    "Verif.Slack.unreadable_after_removal",
    "Verif.Slack.lost_by_removal",
    "Verif.Slack.empty_extension_stays",
    "Verif.Slack.add_forgets_other_variants"
   ],
   "note": "False in the code after some removals of the last variant: reduceVariantArraySize resizes the vector to the number of elements to remove, so that remaining variants read out of bounds or later clones lose the terminal (witnesses; remove_last_reads says exactly which variants are still read). Proved for all sequences of calls without such removals: refinement of an abstract map from variants and voltage levels to terminals, answers included. One thread, one target per clone."
  },
  {
   "property": "C82",
   "status": "proved",
   "theorems": [
    "Verif.BusEquip.connected_terminals",
    "Verif.BusEquip.visits_connected",
    "Verif.BusEquip.visits_held",
    "Verif.BusEquip.told_one_way",
    "Verif.BusEquip.stranger_refused",
    "Verif.BusEquip.sees_terminals",
    "Verif.BusEquip.listing_counts",
    "Verif.BusEquip.listed_per_terminal",
    "Verif.BusEquip.in_one_listing",
    "Verif.BusEquip.active_power",
    "Verif.BusEquip.reactive_power",
    "Verif.BusEquip.amounts_determined",
    "Verif.BusEquip.power_nan_iff",
    "Verif.BusEquip.active_balance",
    "Verif.BusEquip.reactive_balance",
    "Verif.BusEquip.merged_active",
    "Verif.BusEquip.never_set",
    "Verif.BusEquip.invalidated"
   ],
   "note": "For every network reached by adding, removing, connecting and setting powers, and every bus whose terminals are alive. Sums are proved for any addition in the order of the terminals; the balance and the NaN criterion for finite powers without rounding. Values of the working variant."
  },
  {
   "property": "C83",
   "status": "partial",
   "theorems": [
    "Verif.BusState.set_voltage",
    "Verif.BusState.set_angle",
    "Verif.BusState.read_back_partial",
    "Verif.BusState.read_back_angle_partial",
    "Verif.BusState.not_read_back",
    "Verif.BusState.merged_shows",
    "Verif.BusState.reference",
    "Verif.BusState.shows",
    "Verif.BusState.bus_view_read_back",
    "Verif.BusState.across_views",
    "Verif.BusState.others_untouched",
    "Verif.BusState.bus_view_apart",
    "Verif.BusState.invalidated_refuses",
    "Verif.BusState.invalidated_voltage"
   ],
   "note": "Reading back is proved for every bus that owns something, hence for every bus of the bus view; it is false of a bus of the bus/breaker view without terminals. An invalidated merged bus gives a voltage, NaN, instead of refusing."
  },
  {
   "property": "C84",
   "status": "partial",
   "theorems": [
    "Verif.RegTerm.getter",
    "Verif.RegTerm.netOf_iff",
    "Verif.RegTerm.set_regulating",
    "Verif.RegTerm.add_device",
    "Verif.RegTerm.set_tap",
    "Verif.RegTerm.add_tap",
    "Verif.RegTerm.dangling_iff",
    "Verif.RegTerm.touch_tap",
    "Verif.RegTerm.same_network",
    "Verif.RegTerm.own_terminal",
    "Verif.RegTerm.references_partial",
    "Verif.RegTerm.write_refs",
    "Verif.RegTerm.defined_partial",
    "Verif.RegTerm.dangling_write",
    "Verif.RegTerm.dangling_setter",
    "Verif.RegTerm.foreign_ratio",
    "Verif.RegTerm.foreign_control"
   ],
   "note": "The references are the ones asked for, always. They name terminals that are there as long as no equipment is removed while another one refers to it; the code does not prevent that. The network is not checked by the adder of a ratio tap changer that does not regulate, nor by the remote reactive power control."
  },
  {
   "property": "C85",
   "status": "partial",
   "theorems": [
    "Verif.LimitSet.found",
    "Verif.LimitSet.by_kind",
    "Verif.LimitSet.listed",
    "Verif.LimitSet.add_accepted_iff",
    "Verif.LimitSet.add_defined",
    "Verif.LimitSet.add_new",
    "Verif.LimitSet.remove_outcome",
    "Verif.LimitSet.set_outcome",
    "Verif.LimitSet.replaced_gone",
    "Verif.LimitSet.permanent_iff",
    "Verif.LimitSet.temporary_eq",
    "Verif.LimitSet.voltage_refused",
    "Verif.LimitSet.permanent_partial",
    "Verif.LimitSet.active_negative",
    "Verif.LimitSet.overloaded_iff",
    "Verif.LimitSet.duration_eq",
    "Verif.LimitSet.leg_constructor_undefined",
    "Verif.LimitSet.branch_constructor_defined"
   ],
   "note": "Full, but for the checks of active power: the code compares the signed power, so a negative one never reaches its limit. The constructor of a leg of a three windings transformer reads a member that has no value yet."
  },
  {
   "property": "C86",
   "status": "partial",
   "theorems": [
    "Verif.XmlOld.busbar_section_old",
    "Verif.XmlOld.svc_old_partial",
    "Verif.XmlOld.svc_old_refused",
    "Verif.XmlOld.dangling_line_old",
    "Verif.XmlOld.net_load_kept",
    "Verif.XmlOld.silent_losses",
    "Verif.XmlOld.kept_ident_whole",
    "Verif.XmlOld.line_old",
    "Verif.XmlOld.tie_line_old",
    "Verif.XmlOld.boundary_warning_iff",
    "Verif.XmlOld.boundary_warnings_partial",
    "Verif.XmlOld.boundary_check_wrong",
    "Verif.XmlOld.half_flag_lost"
   ],
   "note": "Full, but for: a regulating terminal in version 1.0 (written although reported, then refused); losses that are not reported (flag of fictitious equipment, aliases and their types, flag of the halves); the reactive power of the second half of a tie line, which the reader takes from the first half. What the writer logs is the name of what is lost; the text of the messages is not modelled."
  },
  {
   "property": "C87",
   "status": "partial",
   "theorems": [
    "Verif.XmlOld.ratio_tap_changer_old",
    "Verif.XmlOld.phase_tap_changer_old",
    "Verif.XmlOld.deadband_lost",
    "Verif.XmlOld.deadband_kept",
    "Verif.XmlOld.two_windings_transformer_old",
    "Verif.XmlOld.rated_s_lost",
    "Verif.XmlOld.three_windings_transformer_old_partial",
    "Verif.XmlOld.three_windings_transformer_refused",
    "Verif.XmlOld.version_15_whole"
   ],
   "note": "Full, but for: the tap changers of a three windings transformer that version 1.0 does not have (written although reported, then refused); losses that are not reported (dead bands of 0, rated apparent powers)."
  },
  {
   "property": "C88",
   "status": "partial",
   "theorems": [
    "Verif.XmlOld.network_old_partial",
    "Verif.XmlOld.written_network_read_partial",
    "Verif.XmlOld.version_15_network",
    "Verif.XmlOld.substation_old_partial",
    "Verif.XmlOld.voltage_level_old_partial",
    "Verif.XmlOld.load_old",
    "Verif.XmlOld.generator_old",
    "Verif.XmlOld.battery_old",
    "Verif.XmlOld.lcc_old",
    "Verif.XmlOld.vsc_old",
    "Verif.XmlOld.hvdc_line_old",
    "Verif.XmlOld.bus_old_partial",
    "Verif.XmlOld.node_switch_old",
    "Verif.XmlOld.bus_switch_old",
    "Verif.XmlOld.shunt_old_partial",
    "Verif.XmlOld.shunt_conductance_dropped",
    "Verif.XmlOld.network_aliases_refused"
   ],
   "note": "Full, but for: aliases of the network before version 1.3 (written although reported, then refused: network_aliases_refused); what C86 and C87 leave out; buses with aliases or properties, as in C68; shunt compensators lose their conductance before version 1.3 without a report (shunt_conductance_dropped). Extensions, filters and the header of the file are not modelled here; the voltages of busbar sections, the number of nodes and the flows of tie lines that the writer asks the network for are parameters."
  },
  {
   "property": "C89",
   "status": "partial",
   "theorems": [
    "Verif.Coarse.import_at_level_partial",
    "Verif.Coarse.network_at_level_partial",
    "Verif.Coarse.substation_at_level",
    "Verif.Coarse.voltage_level_at_level",
    "Verif.Coarse.exported_level",
    "Verif.Coarse.terminal_at_level",
    "Verif.Coarse.terminal_attributes",
    "Verif.Coarse.written_iff_located",
    "Verif.Coarse.view_switch_round_trip",
    "Verif.Coarse.finest_level",
    "Verif.Coarse.network_ok_at_level",
    "Verif.Coarse.consistent_at_level",
    "Verif.Coarse.references_at_level",
    "Verif.Coarse.busbar_reference_refused",
    "Verif.Coarse.located_iff_qualifies",
    "Verif.Coarse.together_iff_linked",
    "Verif.Coarse.nowhere_refused",
    "Verif.Coarse.alone_nowhere",
    "Verif.Coarse.taken_name_refused",
    "Verif.Coarse.kind_lost",
    "Verif.Coarse.filter_keeps_all",
    "Verif.Coarse.anonymized_switch_refused",
    "Verif.Coarse.filter_inverted"
   ],
   "note": "Full, but for: terminals without a bus in the view (written without a place, then refused: nowhere_refused, alone_nowhere); retained switches whose anonymized name is not that of a retained switch (not written: anonymized_switch_refused); buses of the view with the name of another object (refused: taken_name_refused); the conditions of C70 and C72. The views are parameters (the merged buses of C23 are put in by located_iff_qualifies and together_iff_linked; those of node/breaker voltage levels are not); version 1.5 only. The kind of retained switches is lost (kind_lost) and the filter on the main component does nothing (filter_keeps_all)."
  },
  {
   "property": "C90",
   "status": "partial",
   "theorems": [
    "Verif.CompBuses.component_told",
    "Verif.CompBuses.component_buses",
    "Verif.CompBuses.number_of_bus",
    "Verif.CompBuses.told_exists",
    "Verif.CompBuses.query_keeps",
    "Verif.CompBuses.destroyed_undefined",
    "Verif.CompBuses.invalidated_main",
    "Verif.CompBuses.fills_connected",
    "Verif.CompBuses.fills_synchronous"
   ],
   "note": "Full, but for: one variant; the ends of lines, transformers and HVDC lines are given as ids of buses of the bus view (EndsOk); changes of HVDC lines, which do not invalidate the components (violation of C54), are not among the histories; bus/breaker graphs with a free first vertex (C23). Violations: a component kept across a change of topology dangles (destroyed_undefined); an invalidated merged bus says that it is not in the main component instead of refusing (invalidated_main)."
  },
  {
   "property": "C91",
   "status": "partial",
   "theorems": [
    "Verif.Electric.components_are_paths",
    "Verif.Electric.terminal_view",
    "Verif.Electric.same_view_bus"
   ],
   "note": "Full, but for: one variant; changes of HVDC lines, which do not invalidate the components (violation of C54), are not among the histories; bus/breaker graphs with a free first vertex (C23)."
  },
  {
   "property": "C92",
   "status": "partial",
   "theorems": [
    "Verif.BusRefs.resolve_terminal",
    "Verif.BusRefs.resolve_bus",
    "Verif.BusRefs.resolve_refused_iff",
    "Verif.BusRefs.bus_without_terminal",
    "Verif.BusRefs.side_terminal",
    "Verif.BusRefs.terminal_in_level",
    "Verif.BusRefs.leg_terminal"
   ],
   "note": "Full, but for a configured bus to which nothing is connected: it resolves to no bus at the bus/branch level even when it is part of one (bus_without_terminal). One variant; bus/breaker graphs with a free first vertex are left out (C23); removed branches (no terminals) are refused by std::vector::at and are not stated."
  },
  {
   "property": "C93",
   "status": "partial",
   "theorems": [
    "Verif.Fields.obj_allocate",
    "Verif.Fields.obj_extend",
    "Verif.Fields.obj_reduce",
    "Verif.Fields.obj_delete",
    "Verif.Fields.values_there",
    "Verif.Fields.clone_succeeds",
    "Verif.Fields.clone_values",
    "Verif.Fields.clone_variants",
    "Verif.Fields.remove_succeeds",
    "Verif.Fields.remove_values",
    "Verif.Fields.alloc_caches_empty",
    "Verif.Fields.ext_caches_empty",
    "Verif.Fields.inventory_complete"
   ],
   "note": "Full for the classes; for the network, without slack terminal extensions (whose reduction is wrong, C81) and for clones that do not name a target twice (C09). Creations and setters are any change that leaves one element per index. Of a cache only its presence and whether it is empty are modelled."
  },
  {
   "property": "C94",
   "status": "partial",
   "theorems": [
    "Verif.Setters.load_stays_valid",
    "Verif.Setters.generator_stays_valid_iff",
    "Verif.Setters.battery_stays_valid",
    "Verif.Setters.lcc_stays_valid",
    "Verif.Setters.vsc_stays_valid",
    "Verif.Setters.svc_stays_valid",
    "Verif.Setters.shunt_stays_valid",
    "Verif.Setters.generation_stays_valid",
    "Verif.Setters.dangling_stays_valid",
    "Verif.Setters.line_stays_valid",
    "Verif.Setters.tie_stays_valid",
    "Verif.Setters.hvdc_stays_valid",
    "Verif.Setters.ratio_stays_inside",
    "Verif.Setters.phase_stays_inside",
    "Verif.Setters.ratio_stays_valid_iff",
    "Verif.Setters.phase_stays_valid_iff",
    "Verif.Setters.new_ratio_valid",
    "Verif.Setters.new_phase_valid",
    "Verif.Setters.tw2_stays_valid_iff",
    "Verif.Setters.tw3_stays_valid_iff",
    "Verif.Setters.bus_stays_valid",
    "Verif.Setters.switch_stays_valid",
    "Verif.Setters.voltage_level_stays_valid_iff",
    "Verif.Setters.substation_stays_valid_iff",
    "Verif.Setters.network_stays_inside",
    "Verif.Setters.network_stays_valid_iff",
    "Verif.Setters.positions_stay_inside",
    "Verif.Setters.histories_stay_valid_iff",
    "Verif.Setters.histories_stay_valid_partial",
    "Verif.Setters.plain_histories_stay_valid",
    "Verif.Setters.ratio_undefined_iff",
    "Verif.Setters.phase_undefined_iff",
    "Verif.Setters.load_exact",
    "Verif.Setters.generator_exact",
    "Verif.Setters.battery_exact",
    "Verif.Setters.lcc_exact",
    "Verif.Setters.vsc_exact",
    "Verif.Setters.svc_exact",
    "Verif.Setters.shunt_exact",
    "Verif.Setters.generation_exact",
    "Verif.Setters.dangling_exact",
    "Verif.Setters.charac_exact",
    "Verif.Setters.hvdc_exact",
    "Verif.Setters.ratio_exact",
    "Verif.Setters.phase_exact",
    "Verif.Setters.tw2_exact",
    "Verif.Setters.leg_exact",
    "Verif.Setters.bus_exact",
    "Verif.Setters.voltage_level_exact",
    "Verif.Setters.permanent_exact",
    "Verif.Setters.new_limits",
    "Verif.Setters.step_field",
    "Verif.Setters.ratio_step_written",
    "Verif.Setters.phase_step_written",
    "Verif.Setters.other_substations",
    "Verif.Setters.other_lines",
    "Verif.Setters.other_generators",
    "Verif.Setters.unsafe_call_unreadable",
    "Verif.Setters.unsafe_transformer_unreadable",
    "Verif.Setters.step_unset_accepted",
    "Verif.Setters.capabilities_unchecked",
    "Verif.Setters.fixed_tap_made_regulating",
    "Verif.Setters.two_made_regulating",
    "Verif.Setters.energy_source_unchecked",
    "Verif.Setters.country_unchecked",
    "Verif.Setters.active_power_written",
    "Verif.Setters.reactive_power_written",
    "Verif.Setters.connection_written",
    "Verif.Setters.move_written",
    "Verif.Setters.shunt_terminal_written",
    "Verif.Setters.fictitious_written",
    "Verif.Setters.alias_removed",
    "Verif.Setters.alias_added"
   ],
   "note": "The property is false of the code for a few calls, named by Safe: values of a step, load tap changing capabilities, regulation of a phase tap changer, regulation of a second tap changer, energy source, country, fictitious network. The theorems say that these are the only ones, that each of them does break it, and that the network is then read from no document. In one variant; the exactness of setters is about those of one value, without the bounds of the generation of a dangling line. See C98 for additions."
  },
  {
   "property": "C95",
   "status": "partial",
   "theorems": [
    "Verif.ReadBack.network_ok_iff",
    "Verif.ReadBack.valid_network_read_back",
    "Verif.ReadBack.read_export_read",
    "Verif.ReadBack.import_export_import",
    "Verif.ReadBack.edited_network_read_back",
    "Verif.ReadBack.quiet_network_goes_together",
    "Verif.ReadBack.edited_network_imported_partial"
   ],
   "note": "Without anonymizer and in one variant. Calls that change aliases or move a terminal are left out of edited_network_imported_partial (they are in edited_network_read_back, without the check of the rest of the network); a regulating terminal is given as an identifier and a side. What does not fit in a document is named by NetFits; that it is not read back is shown for some of its clauses only, in C69 to C71. The order of elements in a document is that of the writer. A network keeps here the names by which the document refers to voltage levels, stations and terminals, where the code keeps references and writes identifiers: for documents that use aliases, superfluous sides or references to the equipment itself, what is exported is given by C96. See C97 for those calls and C98 for additions."
  },
  {
   "property": "C96",
   "status": "partial",
   "theorems": [
    "Verif.ReadBack.settled_same",
    "Verif.ReadBack.settled_designates",
    "Verif.ReadBack.settled_by_id",
    "Verif.ReadBack.by_id_settled",
    "Verif.ReadBack.settled_goes_together",
    "Verif.ReadBack.settled_settled",
    "Verif.ReadBack.imported_by_id",
    "Verif.ReadBack.export_imported",
    "Verif.ReadBack.export_settled",
    "Verif.ReadBack.import_export_settled",
    "Verif.ReadBack.edited_network_settled_partial",
    "Verif.ReadBack.goodNet_renamed",
    "Verif.ReadBack.names_not_kept"
   ],
   "note": "Without anonymizer and in one variant, version 1.5, full level of topology. A name that nobody has is kept by `settled`; such a network is not imported. Calls that change aliases or move a terminal are left out of edited_network_settled_partial. See C97 for those calls and C98 for additions."
  },
  {
   "property": "C97",
   "status": "partial",
   "theorems": [
    "Verif.ReadBack.honest_call_goes_together",
    "Verif.ReadBack.honest_network_goes_together",
    "Verif.ReadBack.edited_network_comes_back",
    "Verif.ReadBack.dishonest_move_breaks",
    "Verif.ReadBack.document_alias_needed"
   ],
   "note": "Without anonymizer and in one variant, version 1.5, full level of topology. The calls are those of C94: objects are neither added nor removed, and the calls that break validity in the code (see C94) are left out by SafeHistory. The answers that the code looks up in the network (names taken, buses of a voltage level) are arguments of the calls, and HonestHistory says that they are those of the network. Regulating terminals are set by the identifier of the equipment. See C98 for additions."
  },
  {
   "property": "C98",
   "status": "partial",
   "theorems": [
    "Verif.Build.load_added_iff",
    "Verif.Build.generator_added_iff",
    "Verif.Build.battery_added_iff",
    "Verif.Build.vsc_added_iff",
    "Verif.Build.lcc_added_iff",
    "Verif.Build.svc_added_iff",
    "Verif.Build.shunt_added_iff",
    "Verif.Build.dangling_added_iff",
    "Verif.Build.bus_added_iff",
    "Verif.Build.busSwitch_added_iff",
    "Verif.Build.busbar_added_iff",
    "Verif.Build.nodeSwitch_added_iff",
    "Verif.Build.connection_added_iff",
    "Verif.Build.level_added_iff",
    "Verif.Build.tw2_added_iff",
    "Verif.Build.tw3_added_iff",
    "Verif.Build.line_added_iff",
    "Verif.Build.tie_added_iff",
    "Verif.Build.hvdc_added_iff",
    "Verif.Build.substation_added_iff",
    "Verif.Build.generation_defaults",
    "Verif.Build.new_parts",
    "Verif.Build.new_network_iff",
    "Verif.Build.new_network_valid",
    "Verif.Build.spoilt_injection_iff",
    "Verif.Build.spoilt_branch_iff",
    "Verif.Build.level_stays_valid",
    "Verif.Build.substation_stays_valid",
    "Verif.Build.network_built_valid_iff",
    "Verif.Build.addition_goes_together",
    "Verif.Build.safe_call_keeps",
    "Verif.Build.built_network_holds",
    "Verif.Build.built_network_comes_back",
    "Verif.Build.extended_network_comes_back",
    "Verif.Build.spoilt_load",
    "Verif.Build.spoilt_branch",
    "Verif.Build.unknown_source_breaks",
    "Verif.Build.unknown_country_breaks",
    "Verif.Build.unknown_switch_breaks"
   ],
   "note": "One variant, no anonymizer. Objects are listed in the order of the additions (the code keeps some of them in hash maps); calculated buses are not represented (C20, C24, C46 for their caches); the terminal of a node is looked for in the equipment instead of the graph. An adder that throws after the object is in the index (C29) ends the history: nothing is said of what follows. Safe calls have enumerators of their enumerations, regulating terminals of equipment of the network by identifiers, and, for dangling lines, bounds that are doubles; the setters are those of C94, with the same restrictions. Tap changers and limits are set by the calls of C94; nothing is removed; extensions are left out. The exactness theorems suppose fewer than 2^64 names."
  },
  {
   "property": "C99",
   "status": "partial",
   "theorems": [
    "Verif.Remove.connectable_removed_iff",
    "Verif.Remove.hvdc_removed_iff",
    "Verif.Remove.bus_removed_iff",
    "Verif.Remove.switch_removed_iff",
    "Verif.Remove.removed_exactly",
    "Verif.Remove.nobody_left",
    "Verif.Remove.level_change_iff",
    "Verif.Remove.all_switches_removed_iff",
    "Verif.Remove.connections_removed",
    "Verif.Remove.connections_removed_iff",
    "Verif.Remove.removal_keeps_valid",
    "Verif.Remove.removal_goes_together",
    "Verif.Remove.equipment_removal_iff",
    "Verif.Remove.other_removal_tidy",
    "Verif.Remove.safe_step_keeps",
    "Verif.Remove.history_holds",
    "Verif.Remove.history_comes_back",
    "Verif.Remove.edited_network_comes_back",
    "Verif.Remove.addition_undone",
    "Verif.Remove.line_undone",
    "Verif.Remove.safe_of_check",
    "Verif.Remove.regulated_removed",
    "Verif.Remove.shared_station_removed",
    "Verif.Remove.removed_in_turn",
    "Verif.Remove.all_buses_removed_iff",
    "Verif.Remove.all_buses_one_by_one",
    "Verif.Remove.all_switches_one_by_one",
    "Verif.Remove.all_buses_keep",
    "Verif.Remove.connection_undone_iff",
    "Verif.Remove.level_removed_iff",
    "Verif.Remove.level_removed_exactly",
    "Verif.Remove.level_removal_keeps",
    "Verif.Remove.level_removal_iff",
    "Verif.Remove.regulated_level_removed"
   ],
   "note": "One variant. Removing substations is left out. Removing a voltage level takes its objects away together, where the code removes them one by one (C27), and is outside the histories; removing all buses is a call of its own, outside the histories, which hold it as the removals of the buses one by one. Removing an HVDC line of which a station belongs to another line is an undefined outcome of the model: the state in which the station is no longer protected (C28) is not represented. Calculated buses are not recomputed and the slots of the graph are not represented (C20, C24, C46). Objects are listed in the order of the additions. Undoing leaves out substations and voltage levels; for HVDC lines it supposes stations of no other line. Histories are restricted as in C98."
  }
 ]
}