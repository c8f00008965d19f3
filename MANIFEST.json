{
 "claims": [
  {
   "property": "C01",
   "status": "proved",
   "theorems": [
    "Osp.Wire.header_encodable_iff",
    "Osp.Wire.header_roundtrip",
    "Osp.Wire.header_count_mismatch",
    "Osp.Wire.header_overflow",
    "Osp.Wire.header_canonical",
    "Osp.Wire.header_too_short",
    "Osp.Wire.file_bad_header"
   ],
   "note": ""
  },
  {
   "property": "C02",
   "status": "proved",
   "theorems": [
    "Osp.Wire.split_join",
    "Osp.Wire.split_blocks_sized"
   ],
   "note": ""
  },
  {
   "property": "C03",
   "status": "proved",
   "theorems": [
    "Osp.Wire.files_roundtrip"
   ],
   "note": ""
  },
  {
   "property": "C04",
   "status": "proved",
   "theorems": [
    "Osp.Wire.request_roundtrip",
    "Osp.Wire.version_rejected",
    "Osp.Wire.request_truncated",
    "Osp.Wire.request_stream",
    "Osp.Wire.response_roundtrip",
    "Osp.Wire.missing_file_stops_request",
    "Osp.Wire.missing_file_desyncs_connection",
    "Osp.Wire.server_bad_header",
    "Osp.Wire.client_bad_header"
   ],
   "note": "missing_file_desyncs_connection is a recorded deviation: a file that disappears between naming and sending desynchronises the connection."
  },
  {
   "property": "C05",
   "status": "proved",
   "theorems": [
    "Osp.Wire.filter_hash_table",
    "Osp.Wire.filter_decision",
    "Osp.Wire.response_roundtrip"
   ],
   "note": ""
  },
  {
   "property": "C06",
   "status": "proved",
   "theorems": [
    "Osp.Transport.value_roundtrip",
    "Osp.Transport.reserved_changed",
    "Osp.Transport.dotted_entity_lost",
    "Osp.Transport.unsupported_refused",
    "Osp.Transport.uuid_exact"
   ],
   "note": "Exact round trip for all values without reserved shapes and without entities whose name contains a dot; the deviations are the witnesses."
  },
  {
   "property": "C07",
   "status": "proved",
   "theorems": [
    "Osp.Server.only_exported_methods",
    "Osp.Server.other_commands_refused",
    "Osp.Server.history_only_exported"
   ],
   "note": ""
  },
  {
   "property": "C08",
   "status": "proved",
   "theorems": [
    "Osp.Server.connections_isolated",
    "Osp.Server.sessions_not_shared"
   ],
   "note": "Session class is an arbitrary parameter; state shared outside the server (a database) is not modelled."
  },
  {
   "property": "C09",
   "status": "partial",
   "theorems": [
    "Osp.Server.closed_exactly_once_partial",
    "Osp.Server.disconnect_removes_session",
    "Osp.Server.every_request_answered",
    "Osp.Server.exception_reported",
    "Osp.Server.failed_reinit_keeps_closed_session",
    "Osp.Server.session_leaked",
    "Osp.Server.failing_close_keeps_session",
    "Osp.Server.newSession_exact",
    "Osp.Server.newSession_no_auth",
    "Osp.Server.newHashes_missing"
   ],
   "note": "False for a failing re-initialisation, an init request without hashes, and a close that raises (witnesses); proved for all histories without those."
  },
  {
   "property": "C10",
   "status": "partial",
   "theorems": [
    "Osp.Sess.buffers_disjoint_partial",
    "Osp.Sess.reused_uid_in_two_buffers"
   ],
   "note": "False in general (reused_uid_in_two_buffers: an object created again under the uid of an updated object is in two buffers). Proved for every history in which new objects get new uids."
  },
  {
   "property": "C11",
   "status": "partial",
   "theorems": [
    "Osp.Sess.buffers_net_change_partial",
    "Osp.Sess.second_deletion_lost",
    "Osp.Sess.load_resurrects_deleted"
   ],
   "note": "False in general (two witnesses). Proved for all safe histories."
  },
  {
   "property": "C12",
   "status": "partial",
   "theorems": [
    "Osp.Sess.expire_exact",
    "Osp.Sess.load_fresh_partial",
    "Osp.Sess.pending_survive_partial",
    "Osp.Sess.pending_object_overwritten_by_load",
    "Osp.Sess.query_by_class_overwrites_pending",
    "Osp.Sess.refresh_error",
    "Osp.Sess.loadAll_error"
   ],
   "note": "expire never marks pending objects (expire_exact, all states). Pending changes survive all safe operations; a load of a pending deleted object and a query by class overwrite them (witnesses)."
  },
  {
   "property": "C13",
   "status": "proved",
   "theorems": [
    "Osp.Sess.engine_keeps_user_buffers",
    "Osp.Sess.loading_keeps_user_buffers"
   ],
   "note": ""
  },
  {
   "property": "C14",
   "status": "partial",
   "theorems": [
    "Osp.Sess.success_consumes_partial",
    "Osp.Sess.failure_keeps_or_loses",
    "Osp.Sess.failed_commit_rolls_back",
    "Osp.Sess.first_run_drops_changes",
    "Osp.Sess.failed_save_leaves_file_open",
    "Osp.Sess.commit_exact",
    "Osp.Sess.consume_no_root"
   ],
   "note": "For every backend. False for the first run of a simulation session: only the added objects are passed (first_run_drops_changes)."
  },
  {
   "property": "C15",
   "status": "partial",
   "theorems": [
    "Osp.Sess.one_wrapper_partial",
    "Osp.Sess.one_wrapper_created",
    "Osp.Sess.rejected_creation_no_effect",
    "Osp.Sess.root_never_changes",
    "Osp.Sess.received_non_wrapper_becomes_root",
    "Osp.Sess.rejected_second_wrapper_registered",
    "Osp.Sess.received_exception",
    "Osp.Sess.no_wrapper_no_load"
   ],
   "note": "False for objects received or loaded without their class triples (two witnesses); proved for histories of creations."
  },
  {
   "property": "C16",
   "status": "proved",
   "theorems": [
    "Osp.Cuds.history_simulates",
    "Osp.Cuds.reachable_view",
    "Osp.Cuds.links_symmetric",
    "Osp.Cuds.delete_dangling_without_top"
   ],
   "note": "Under Onto.WF (inverse is an involution; every relationship is below cuba:relationship). delete_dangling_without_top shows the second hypothesis is necessary."
  },
  {
   "property": "C17",
   "status": "proved",
   "theorems": [
    "Osp.Cuds.add_exact",
    "Osp.Cuds.history_simulates"
   ],
   "note": ""
  },
  {
   "property": "C18",
   "status": "proved",
   "theorems": [
    "Osp.Cuds.remove_exact",
    "Osp.Cuds.history_simulates"
   ],
   "note": ""
  },
  {
   "property": "C19",
   "status": "proved",
   "theorems": [
    "Osp.Cuds.get_by_filter",
    "Osp.Cuds.get_by_uids",
    "Osp.Cuds.get_uids_and_oclass",
    "Osp.Cuds.get_with_rel",
    "Osp.Cuds.get_uid_return_rel_raises",
    "Osp.Cuds.get_with_rel_once",
    "Osp.Cuds.get_with_rel_uids"
   ],
   "note": ""
  },
  {
   "property": "C20",
   "status": "proved",
   "theorems": [
    "Osp.Cuds.setAttr_last_write_wins",
    "Osp.Cuds.attributes_single_valued",
    "Osp.Cuds.getAttr_view",
    "Osp.Cuds.create_existing_uid_corrupts"
   ],
   "note": "For objects created with fresh uids; create_existing_uid_corrupts is the recorded deviation for reused uids."
  },
  {
   "property": "C21",
   "status": "proved",
   "theorems": [
    "Osp.Cuds.delete_exact",
    "Osp.Cuds.delete_dangling_without_top"
   ],
   "note": ""
  },
  {
   "property": "C22",
   "status": "proved",
   "theorems": [
    "Osp.Search.prune_exact",
    "Osp.Search.prune_all_no_dangling",
    "Osp.Search.prune_filter_leaves_dangling_links",
    "Osp.Search.registry_prune_exact",
    "Osp.Search.ex_registry_prune"
   ],
   "note": "prune_filter_leaves_dangling_links: with a relationship filter, kept objects may keep links to pruned ones (recorded behaviour)."
  },
  {
   "property": "C23",
   "status": "proved",
   "theorems": [
    "Osp.Search.get_subtree_exact"
   ],
   "note": ""
  },
  {
   "property": "C24",
   "status": "proved",
   "theorems": [
    "Osp.Store.add_from_other_session",
    "Osp.Store.update_from_other_session",
    "Osp.Store.add_from_refused",
    "Osp.Store.import_coherent",
    "Osp.Store.setup_of_reachable",
    "Osp.Store.setup_example",
    "Osp.Store.add_example",
    "Osp.Store.active_link_to_self_one_way",
    "Osp.Store.stale_type_second_class"
   ],
   "note": "Model of Cuds.add/update with objects of another session, _recursive_store, _fix_neighbors, create_from_cuds_object, for arbitrary enumeration orders. Hypotheses (Setup): same class for the same uid, no self-links of replaced objects. Findings: the active link of a copied object to the object it is added to stays one-way; types of dropped neighbours stay in the graph."
  },
  {
   "property": "C25",
   "status": "partial",
   "theorems": [
    "Osp.Store.old_parents_kept_partial",
    "Osp.Store.old_parent_lost",
    "Osp.Store.old_parents_lost_poor",
    "Osp.Store.rich_example",
    "Osp.Store.rich_kept",
    "Osp.Store.poor_example",
    "Osp.Store.fixOldNeighbors_missing",
    "Osp.Store.createFrom_no_class"
   ],
   "note": "Proved for objects with a single parent per relationship, and for objects with several of which one takes part in at least as many kinds of relationships as there are parents (Rich). Missing: the rest, where the claim is false of the code: old_parents_lost_poor proves in general that no more old parents stay connected than each of them takes part in kinds of relationships (the zip in _fix_old_neighbors truncates); old_parent_lost is a concrete run."
  },
  {
   "property": "C26",
   "status": "proved",
   "theorems": [
    "Osp.Search.find_all_exact",
    "Osp.Search.find_first_exact",
    "Osp.Search.find_depth_sound"
   ],
   "note": ""
  },
  {
   "property": "C27",
   "status": "partial",
   "theorems": [
    "Osp.Search.find_depth_complete_partial",
    "Osp.Search.find_depth_incomplete"
   ],
   "note": "The full claim is false of the code (find_depth_incomplete): the shared visited set lets a deep first visit block a shallower one. Proved: completeness when every object has a fixed level (all paths to it have equal length, e.g. trees)."
  },
  {
   "property": "C28",
   "status": "proved",
   "theorems": [
    "Osp.Onto.closure_exact",
    "Osp.Onto.direct_exact",
    "Osp.Onto.direct_no_blank",
    "Osp.Onto.closure_no_blank",
    "Osp.Onto.ex_no_blank"
   ],
   "note": ""
  },
  {
   "property": "C29",
   "status": "partial",
   "theorems": [
    "Osp.Onto.subclass_refl",
    "Osp.Onto.subclass_trans",
    "Osp.Onto.superclass_trans",
    "Osp.Onto.isSubclassOf_iff",
    "Osp.Onto.isSuperclassOf_iff",
    "Osp.Onto.subclass_superclass_dual_partial",
    "Osp.Onto.dual_fails_at_top",
    "Osp.Onto.top_attribute_no_subs"
   ],
   "note": "Preorder: all entities. Duality proved for all entities except the blacklisted top/bottom, where it is false of the code (dual_fails_at_top)."
  },
  {
   "property": "C30",
   "status": "proved",
   "theorems": [
    "Osp.Onto.inverse_involution",
    "Osp.Onto.inverse_conservative",
    "Osp.Onto.two_inverses_break_involution",
    "Osp.Onto.equal_labels_break_involution"
   ],
   "note": "Under the one-inverse condition RG.WF; the two witnesses show what happens without it."
  },
  {
   "property": "C31",
   "status": "proved",
   "theorems": [
    "Osp.Onto.created_inverse_below"
   ],
   "note": ""
  },
  {
   "property": "C32",
   "status": "proved",
   "theorems": [
    "Osp.Onto.datatype_exact"
   ],
   "note": ""
  },
  {
   "property": "C33",
   "status": "proved",
   "theorems": [
    "Osp.Onto.constructor_arguments_exact",
    "Osp.Onto.constructor_arguments_force",
    "Osp.Onto.no_keyword_dropped",
    "Osp.Onto.case_clash_steals_keyword",
    "Osp.Onto.force_drops_keyword",
    "Osp.Onto.attributeByArgname_exact",
    "Osp.Onto.ex_argname"
   ],
   "note": "Exact resolution for attributes that do not compete for a keyword; deviations recorded for names differing only in case and for _force."
  },
  {
   "property": "C34",
   "status": "proved",
   "theorems": [
    "Osp.Install.sortFor_ok",
    "Osp.Install.sortFor_iff",
    "Osp.Install.install_exact",
    "Osp.Install.install_without_order_raises",
    "Osp.Install.install_with_order_succeeds",
    "Osp.Install.install_fails_directory_kept",
    "Osp.Install.overwrite_exact",
    "Osp.Install.overwrite_fails_directory_kept",
    "Osp.Install.good_history",
    "Osp.Install.requirements_installed",
    "Osp.Install.restart_same",
    "Osp.Install.installed_twice_named_keyError",
    "Osp.Install.rdf_with_requirements_not_installable",
    "Osp.Install.Ex.requirement_spelling",
    "Osp.Install.Ex.capital_wipes_graph",
    "Osp.Install.Ex.package_named_graph",
    "Osp.Install.Ex.dotted_namespace",
    "Osp.Install.getIdentifier_exact",
    "Osp.Install.rdfPath_exact",
    "Osp.Install.ex_rdfPath",
    "Osp.Install.filePath_exact",
    "Osp.Install.requirements_exact",
    "Osp.Install.parse_failed"
   ],
   "note": "All requirement graphs, directories and request histories; parsing is an arbitrary function that may fail. Identifiers without dots. Recorded findings: KeyError when an installed package is named twice, RDF packages with requirements or capital letters cannot be installed, a failing overwrite can lose packages, requirements are case sensitive and cuba never counts as installed."
  },
  {
   "property": "C35",
   "status": "partial",
   "theorems": [
    "Osp.Install.uninstall_exact",
    "Osp.Install.meant_exact",
    "Osp.Install.uninstall_fails_directory_kept_partial",
    "Osp.Install.uninstall_unknown_raises",
    "Osp.Install.uninstall_needed_raises",
    "Osp.Install.uninstall_succeeds",
    "Osp.Install.refused_uninstall_empties_registry",
    "Osp.Install.other_format_blocks_uninstall",
    "Osp.Install.Ex.refused_uninstall_loses_packages",
    "Osp.Install.Ex.turtle_blocks"
   ],
   "note": "Proved: exactly the others stay installed, refused exactly as stated, the directory is unchanged on every failure. The part 'the registry is unchanged' is false of the code (refused_uninstall_empties_registry, Ex.refused_uninstall_loses_packages)."
  },
  {
   "property": "C36",
   "status": "partial",
   "theorems": [
    "Osp.Sql.vector_columns_roundtrip_partial",
    "Osp.Sql.empty_vector_lost",
    "Osp.Sql.misleading_column_name",
    "Osp.Sql.row_without_datatype",
    "Osp.Sql.no_dimensions"
   ],
   "note": "All rows of columns with non-empty vectors and no misleading column names; the two witnesses show both conditions are needed."
  },
  {
   "property": "C37",
   "status": "partial",
   "theorems": [
    "Osp.Sql.table_name_determines_partial",
    "Osp.Sql.table_name_injective_partial",
    "Osp.Sql.unsupported_datatype_refused",
    "Osp.Sql.created_datatypes_supported",
    "Osp.Sql.table_clash",
    "Osp.Sql.tables_written_out",
    "Osp.Sql.no_other_table"
   ],
   "note": "All datatypes of XSD, OWL, RDF, RDFS and all custom ones except names beginning with XSD_, OWL_, RDF_, RDFS_ (false there: table_clash)."
  },
  {
   "property": "C38",
   "status": "partial",
   "theorems": [
    "Osp.Sql.check_characters_partial",
    "Osp.Sql.quote_not_rejected",
    "Osp.Stmt.insert_refused",
    "Osp.Stmt.delete_refused",
    "Osp.Sql.forbidden_exact"
   ],
   "note": "Exact for the semicolon, at every nesting depth. The claim for the other forbidden characters is false of the code (quote_not_rejected): the work list is empty after the first character."
  },
  {
   "property": "C39",
   "status": "partial",
   "theorems": [
    "Osp.Tables.sql_store_is_triple_set_partial",
    "Osp.Tables.stale_namespaces_reloaded",
    "Osp.Tables.untyped_literal_changed",
    "Osp.Tables.literal_returned_twice",
    "Osp.Tables.predicate_ignored_for_iris",
    "Osp.Tables.rollback_corrupts_namespaces",
    "Osp.Tables.changed_split_hides_triples",
    "Osp.Tables.getNs_miss",
    "Osp.Tables.getNs_hit",
    "Osp.Tables.table_of_predicate"
   ],
   "note": "Proved for the set of the results over all histories of additions, removals, queries, reconnections and clearings of triples and patterns in scope (Triple.Ok, Pat.Ok). \"Each once\" is false for literals added twice (literal_returned_twice); the other witnesses show what goes wrong out of scope."
  },
  {
   "property": "C40",
   "status": "partial",
   "theorems": [
    "Osp.Iri.root_substitution_lossless_partial",
    "Osp.Iri.literal_with_prefix_raises",
    "Osp.Iri.literal_of_root_becomes_link",
    "Osp.Iri.zero_uid_becomes_root"
   ],
   "note": "Lossless for graphs without literals that start with the object IRI prefix; false with such literals (witnesses)."
  },
  {
   "property": "C41",
   "status": "partial",
   "theorems": [
    "Osp.Sess.session_refines_partial",
    "Osp.Sess.commit_exact",
    "Osp.Sess.load_returns_contents_partial",
    "Osp.Sess.removal_from_reopened_wrapper_lost",
    "Osp.Sess.recreated_object_keeps_old_triples",
    "Osp.Sess.zombie_is_stored"
   ],
   "note": "Refinement for all safe histories; added objects are merged with what is stored, see the witnesses."
  },
  {
   "property": "C42",
   "status": "partial",
   "theorems": [
    "Osp.Sess.failed_commit_atomic",
    "Osp.Sess.failed_commit_changes_nothing_partial",
    "Osp.Sess.failed_last_step_loses_changes",
    "Osp.Sess.failure_keeps_or_loses"
   ],
   "note": "Database unchanged for every failure point; the buffers are lost iff the final commit of the backend fails (witness)."
  },
  {
   "property": "C43",
   "status": "partial",
   "theorems": [
    "Osp.Sess.reopen_partial",
    "Osp.Persist.history_exact",
    "Osp.Persist.committed_seen",
    "Osp.Persist.connect_exact"
   ],
   "note": "reopen_partial: for all safe histories of the first session (objects, buffers, expiry). history_exact, committed_seen: down to the rows of the tables and with the replacement of the wrapper, for all histories of commits (see C85)."
  },
  {
   "property": "C44",
   "status": "partial",
   "theorems": [
    "Osp.Tables.detect_exact",
    "Osp.Tables.supported_exact",
    "Osp.Tables.procedure_exact",
    "Osp.Tables.migrating_current_database_fails",
    "Osp.Tables.migration_exact_partial",
    "Osp.Tables.migration_stores_labels",
    "Osp.Tables.tables_after_migration",
    "Osp.Tables.migration_drops_everything",
    "Osp.Tables.v1Tables_names"
   ],
   "note": "Detection, refusal and choice of the migration are exact for all table sets; the migration itself is exact for databases whose entities are named by their IRIs, false for entities referenced by label (migration_stores_labels); a current database gives KeyError (migrating_current_database_fails) and a half migrated one loses its tables (migration_drops_everything)."
  },
  {
   "property": "C45",
   "status": "partial",
   "theorems": [
    "Osp.Iri.uid_iri_roundtrip_partial",
    "Osp.Iri.iriFromUid_injective",
    "Osp.Iri.uidFromIri_ignores_prefix",
    "Osp.Iri.uidFromIri_not_injective"
   ],
   "note": "Round trip for all 128 bit uids; IRIs with another prefix or unusual spelling are accepted (witnesses), so the rejection part is false."
  },
  {
   "property": "C46",
   "status": "proved",
   "theorems": [
    "Osp.Query.history_total",
    "Osp.Query.all_faithful",
    "Osp.Query.contains_faithful",
    "Osp.Query.first_faithful",
    "Osp.Query.one_faithful",
    "Osp.Query.next_faithful",
    "Osp.Query.iteration_faithful",
    "Osp.Query.iteration_in_order",
    "Osp.Query.interleaved_iteration_skips"
   ],
   "note": "interleaved_iteration_skips is a recorded deviation."
  },
  {
   "property": "C47",
   "status": "proved",
   "theorems": [
    "Osp.Schema.cardinality_exact",
    "Osp.Schema.other_text_arbitrary",
    "Osp.Schema.quoted_number_arbitrary",
    "Osp.Schema.more_bounds_ignored",
    "Osp.Schema.missing_cardinality_raises"
   ],
   "note": "All documented forms and all counts; recorded: a quoted number allows every count, further bounds are ignored, constraints without cardinality raise TypeError."
  },
  {
   "property": "C48",
   "status": "partial",
   "theorems": [
    "Osp.Schema.consistency_error_exact",
    "Osp.Schema.conforming_tree_accepted",
    "Osp.Schema.cardinality_error_sound",
    "Osp.Schema.validation_exact",
    "Osp.Schema.validation_exact_partial",
    "Osp.Schema.earlier_violation_missed",
    "Osp.Schema.cyclic_structure_never_validated"
   ],
   "note": "The exact result for all finite trees is proved (validation_exact: only the last object of every class is looked at). Consistency errors exact and no false alarms; completeness only for trees with at most one object of each class, because the code keeps only the last object of a class (earlier_violation_missed); cyclic structures end in RecursionError."
  },
  {
   "property": "C49",
   "status": "partial",
   "theorems": [
    "Osp.Sql.condition_pattern_partial",
    "Osp.Sql.pattern_without_values",
    "Osp.Sql.nested_conditions_collide",
    "Osp.Stmt.query_plain",
    "Osp.Stmt.remove_plain"
   ],
   "note": "No value reaches the statement text: all conditions. Distinct parameters: all conditions in which an And with more than ten conditions has no nested And; otherwise false (nested_conditions_collide)."
  },
  {
   "property": "C50",
   "status": "partial",
   "theorems": [
    "Osp.Sql.limited_string_roundtrip",
    "Osp.Sql.string_roundtrip_partial",
    "Osp.Sql.text_with_letter_roundtrip",
    "Osp.Sql.numeric_string_changed",
    "Osp.Sql.string_roundtrip_exact",
    "Osp.Sql.string_roundtrip_iff"
   ],
   "note": "False for xsd:string values that look like numbers (numeric_string_changed: \"5\" becomes \"5.0\"); proved for all other texts and all texts in STRING-n columns."
  },
  {
   "property": "C51",
   "status": "proved",
   "theorems": [
    "Osp.Store.neighbor_diff_exact"
   ],
   "note": ""
  },
  {
   "property": "C52",
   "status": "proved",
   "theorems": [
    "Osp.Sql.vector_roundtrip",
    "Osp.Sql.vector_rejects",
    "Osp.Sql.vector_iri_roundtrip",
    "Osp.Sql.vector_iri_names",
    "Osp.Sql.other_shape_accepted",
    "Osp.Sql.vector_without_dimension"
   ],
   "note": "Elements in row-major order; recorded: any value with the right number of elements is accepted (other_shape_accepted), and a vector datatype without dimension gives an IRI that cannot be read back (vector_without_dimension)."
  },
  {
   "property": "C53",
   "status": "proved",
   "theorems": [
    "Osp.Names.exact_match_wins",
    "Osp.Names.alternative_used",
    "Osp.Names.unknown_name_raises",
    "Osp.Names.inverse_of_used",
    "Osp.Names.inverse_of_alternative",
    "Osp.Names.camel_to_upper_snake",
    "Osp.Names.other_to_upper",
    "Osp.Names.snake_to_camel",
    "Osp.Names.cuba_old_names",
    "Osp.Names.lookup_by_label",
    "Osp.Names.get_by_label",
    "Osp.Names.full_name_roundtrip_partial",
    "Osp.Names.empty_name_index_error",
    "Osp.Names.contains_never_false",
    "Osp.Names.ambiguous_label",
    "Osp.Names.label_case_sensitive",
    "Osp.Names.iterate_exact",
    "Osp.Names.iterate_raises",
    "Osp.Names.members_iff",
    "Osp.Names.members_nodup"
   ],
   "note": "All names and all registries in which the namespace is bound; upper and lower case as in ASCII. Recorded: empty names give IndexError, `in` never gives False, ambiguous labels depend on the order of the graph, namespaces by label are case sensitive. full_name_roundtrip_partial (get_entity of the printed name) goes beyond the claim."
  },
  {
   "property": "C54",
   "status": "partial",
   "theorems": [
    "Osp.Names.bound_namespace_used",
    "Osp.Names.unbound_split_at_hash",
    "Osp.Names.unbound_split_at_slash",
    "Osp.Names.namespace_concatenates",
    "Osp.Names.from_iri_exact",
    "Osp.Names.from_iri_named_by_suffix",
    "Osp.Names.from_iri_named_by_label",
    "Osp.Names.from_iri_without_label_raises",
    "Osp.Names.from_iri_order_independent",
    "Osp.Names.two_types_depend_on_order",
    "Osp.Names.entity_namespace_partial",
    "Osp.Names.urn_entity_has_other_iri",
    "Osp.Names.capital_namespace_two_objects",
    "Osp.Names.shorter_namespace_used",
    "Osp.Connect.schemeChar_exact",
    "Osp.Connect.urlparse_refused",
    "Osp.Connect.usesNetloc_exact"
   ],
   "note": "namespace_concatenates gives the exact condition (a bound namespace fits or the IRI has a hash or slash); false otherwise (urn_entity_has_other_iri)."
  },
  {
   "property": "C55",
   "status": "proved",
   "theorems": [
    "Osp.Yaml.validate_iff",
    "Osp.Yaml.validate_refuses",
    "Osp.Yaml.validate_sound",
    "Osp.Yaml.validate_unknown",
    "Osp.Yaml.accepts_exactly_ontologies",
    "Osp.Yaml.refuses_others",
    "Osp.Yaml.accepted_is_ontology",
    "Osp.Yaml.entity_formats_exact",
    "Osp.Yaml.deep_expression_recursion_error",
    "Osp.Yaml.any_namespace_text",
    "Osp.Yaml.Ex.refused",
    "Osp.Yaml.Ex.let_through",
    "Osp.Yaml.Ex.not_let_through",
    "Osp.Yaml.isBool_exact",
    "Osp.Yaml.text_exact"
   ],
   "note": "For every table of formats, and for the table of YAML ontologies with a separate plain specification. The bound on the nesting of documents is Python's recursion limit; deep_expression_recursion_error shows it is needed. Documents are trees as returned by the YAML loader; the regular expression engine is modelled by the language of the pattern."
  },
  {
   "property": "C56",
   "status": "proved",
   "theorems": [
    "Osp.Transport.convert_path_exact",
    "Osp.Transport.convert_path_back"
   ],
   "note": "All paths and both systems."
  },
  {
   "property": "C57",
   "status": "partial",
   "theorems": [
    "Osp.Sess.changes_applied_before_run_partial",
    "Osp.Sess.first_run_drops_changes",
    "Osp.Sess.failed_first_run_drops_updates",
    "Osp.Sess.consume_no_root"
   ],
   "note": "All histories and all backends; before the first successful run updates and deletions are dropped (witnesses)."
  },
  {
   "property": "C58",
   "status": "proved",
   "theorems": [
    "Osp.Sync.server_receives",
    "Osp.Sync.agree_received",
    "Osp.Sync.call_agrees",
    "Osp.Sync.failed_call_agrees",
    "Osp.Sync.read_refreshes",
    "Osp.Sync.synced0",
    "Osp.Sync.lost_request_loses_changes",
    "Osp.Sync.lost_response_keeps_changes",
    "Osp.Sync.deleted_without_triples_fails",
    "Osp.Sync.user_context_change_not_sent",
    "Osp.Sync.recreated_object_gets_old_type",
    "Osp.Sync.changed_and_expired_not_expired",
    "Osp.Sync.load_without_root",
    "Osp.Sync.request_lost",
    "Osp.Sync.read_fresh"
   ],
   "note": "For all client and server states in the situation between two requests (Synced); call_agrees and failed_call_agrees extend it to the whole request with an arbitrary command that reports its changes in the engine buffers, read_refreshes to loading an expired object through the server. The witnesses show what happens otherwise."
  },
  {
   "property": "C59",
   "status": "proved",
   "theorems": [
    "Osp.Wire.files_confined",
    "Osp.Wire.files_confined_always",
    "Osp.Wire.receiveFilesSt_ok",
    "Osp.Wire.files_halfway",
    "Osp.Wire.cut_example"
   ],
   "note": ""
  },
  {
   "property": "C60",
   "status": "proved",
   "theorems": [
    "Osp.Search.delete_recursively_exact",
    "Osp.Search.delete_stops"
   ],
   "note": ""
  },
  {
   "property": "C61",
   "status": "proved",
   "theorems": [
    "Osp.Onto.attributes_inherited",
    "Osp.Onto.default_order_dependent",
    "Osp.Onto.falsy_default_lost",
    "Osp.Onto.default_does_not_lift_obligation",
    "Osp.Onto.restriction_always_obligatory",
    "Osp.Onto.restriction_obligatory_iff"
   ],
   "note": "Recorded deviations: default order dependence, falsy defaults, obligation not lifted."
  },
  {
   "property": "C62",
   "status": "proved",
   "theorems": [
    "Osp.Transport.moved_files_confined",
    "Osp.Transport.moved_files_exact",
    "Osp.Transport.moveOne_refused"
   ],
   "note": "File system as a map of path texts; move_files with and without the temporary directory."
  },
  {
   "property": "C63",
   "status": "partial",
   "theorems": [
    "Osp.Transport.file_transfer_exact_partial",
    "Osp.Transport.changed_file_not_resent"
   ],
   "note": "Proved for the first transfer of every set of file objects through move_files, send_files, receive_files and move_files; changed_file_not_resent is the counterexample for later transfers of a changed file."
  },
  {
   "property": "C64",
   "status": "partial",
   "theorems": [
    "Osp.Transport.received_file_sent_back_partial",
    "Osp.Transport.any_file_sent",
    "Osp.Transport.arbitrary_file_sent"
   ],
   "note": "Holds for objects whose file was received; false in general: any_file_sent shows that every path of the server can be asked for."
  },
  {
   "property": "C65",
   "status": "proved",
   "theorems": [
    "Osp.Cuds.root_is_first",
    "Osp.Cuds.root_of_new_session",
    "Osp.Cuds.deleted_root_stays"
   ],
   "note": "Over all histories of the CUDS API, failing calls included; deleted_root_stays: the deleted root remains the root."
  },
  {
   "property": "C66",
   "status": "proved",
   "theorems": [
    "Osp.Yaml.datatype_roundtrip",
    "Osp.Yaml.datatype_accepted",
    "Osp.Yaml.meaning_unique",
    "Osp.Yaml.datatype_iri_injective",
    "Osp.Yaml.max_length_enforced",
    "Osp.Yaml.zero_length_no_limit",
    "Osp.Yaml.leading_zeros",
    "Osp.Yaml.meaning_example",
    "Osp.Yaml.basic_iris"
   ],
   "note": "All datatype texts. datatype_accepted classifies every text the validator accepts; recorded: VECTOR alone gives IndexError, VECTOR:VECTOR ValueError, INT:5 cannot be stored, VECTOR:INT without sizes is installed but unusable, STRING:0 is no limit."
  },
  {
   "property": "C67",
   "status": "proved",
   "theorems": [
    "Osp.Ymlp.parse_exact",
    "Osp.Ymlp.parse_keeps",
    "Osp.Ymlp.document_exact",
    "Osp.Ymlp.mem_declared",
    "Osp.Ymlp.accepted_proper",
    "Osp.Ymlp.accepted_viewed",
    "Osp.Ymlp.ready_of_hash",
    "Osp.Ymlp.Ex.parsed_says",
    "Osp.Ymlp.Ex.proper",
    "Osp.Ymlp.Ex.ready",
    "Osp.Ymlp.truth_exact",
    "Osp.Ymlp.splitName_refused"
   ],
   "note": "For all documents the validator accepts whose names and references are texts, and graphs in which the document's namespace is not by label and cannot be confused with others (Ready; ready_of_hash is the usual case). Triples left behind by a failing run are not modelled."
  },
  {
   "property": "C68",
   "status": "partial",
   "theorems": [
    "Osp.Ymlp.parse_succeeds_iff",
    "Osp.Ymlp.document_parsed_iff",
    "Osp.Ymlp.parse_outcome_partial",
    "Osp.Ymlp.cyclic_never_ends",
    "Osp.Ymlp.Cycle.never_ends",
    "Osp.Ymlp.Ex.fine",
    "Osp.Ymlp.Ex.other_spelling",
    "Osp.Ymlp.Ex.false_counts",
    "Osp.Ymlp.Ex.default_elsewhere",
    "Osp.Ymlp.Ex.refused_later",
    "Osp.Ymlp.defaultRel_refused"
   ],
   "note": "The exact condition for success is proved. The part 'otherwise it ends with an exception' is false of the code: with a cycle of superclasses parsing never ends (cyclic_never_ends, Cycle.never_ends). Recorded: the other spelling of a superclass gives KeyError, default_rel: false counts, the default relationship of the document cannot be its own."
  },
  {
   "property": "C69",
   "status": "proved",
   "theorems": [
    "Osp.Ymlp.order_irrelevant",
    "Osp.Ymlp.Ex.reordered"
   ],
   "note": "Also the number of restrictions is the same (Made). Success of one order gives success of the other; by symmetry both are refused otherwise."
  },
  {
   "property": "C70",
   "status": "proved",
   "theorems": [
    "Osp.Export.export_exact",
    "Osp.Export.import_exact",
    "Osp.Export.roundtrip_answers",
    "Osp.Export.others_unchanged",
    "Osp.Export.reimport_unchanged",
    "Osp.Export.complete_import",
    "Osp.Export.transfer_complete",
    "Osp.Export.dangling_after_import",
    "Osp.Export.imported_object_not_deletable",
    "Osp.Export.old_export_breaks_symmetry",
    "Osp.Export.second_class_after_import",
    "Osp.Export.empty_list_raises",
    "Osp.Export.import_refused_iff",
    "Osp.Export.import_stops_at_error",
    "Osp.Export.fix_neighbors_depends_on_order"
   ],
   "note": "All reachable core sessions and all enumeration orders; the JSON-LD text of rdflib is trusted. Recorded: a partial export leaves links to unregistered objects in the importing session (reading them fails, deleting the object fails), an old export breaks the symmetry of links, an object with another class gets two classes, an empty list raises IndexError."
  },
  {
   "property": "C71",
   "status": "proved",
   "theorems": [
    "Osp.Rdfp.rdf_exact",
    "Osp.Rdfp.rdf_refused",
    "Osp.Rdfp.rdf_parsed_iff",
    "Osp.Rdfp.rdf_invalid_unchanged",
    "Osp.Rdfp.bind_exact",
    "Osp.Rdfp.free_name_unique",
    "Osp.Rdfp.names_keep_iri",
    "Osp.Rdfp.name_unique",
    "Osp.Rdfp.package_names",
    "Osp.Rdfp.registry_get",
    "Osp.Rdfp.second_package_renamed",
    "Osp.Rdfp.name_stolen_by_own_package",
    "Osp.Rdfp.refused_package_loaded",
    "Osp.Rdfp.text_active_refused",
    "Osp.Rdfp.rdf_invalid_error",
    "Osp.Rdfp.active_refused",
    "Osp.Rdfp.namespaces_refused"
   ],
   "note": "For all package files whose values have the documented types (Says) and all histories of bind. 'Under its name' holds if no other IRI has the name; otherwise the name gets a number (bind_exact, second_package_renamed). Recorded: a refused package stays loaded in the process, a single active relationship without brackets is refused."
  },
  {
   "property": "C72",
   "status": "partial",
   "theorems": [
    "Osp.Rdfp.restart_names_partial",
    "Osp.Rdfp.restart_registry",
    "Osp.Rdfp.restart_resolve",
    "Osp.Rdfp.tab_breaks_loading",
    "Osp.Rdfp.restart_changes_namespace",
    "Osp.Rdfp.restart_changes_case_clash"
   ],
   "note": "Names and IRIs: all histories, names and IRIs without tab and line breaks (tab_breaks_loading). Lookup by name is proved for names that differ in more than case, resolution of IRIs for which one bound namespace fits; otherwise false (restart_changes_namespace, restart_changes_case_clash)."
  },
  {
   "property": "C73",
   "status": "proved",
   "theorems": [
    "Osp.Utils.find_by_uid",
    "Osp.Utils.find_by_oclass",
    "Osp.Utils.find_by_attribute",
    "Osp.Utils.find_by_relationship",
    "Osp.Utils.registry_filters",
    "Osp.Utils.search_and_filter_differ"
   ],
   "note": "All reachable core sessions; recorded: filter_by_oclass ignores subclasses, unlike the search (search_and_filter_differ). Python attributes that are no ontology attributes (uid, ...) are not modelled."
  },
  {
   "property": "C74",
   "status": "proved",
   "theorems": [
    "Osp.Utils.relationships_between",
    "Osp.Utils.relationships_between_inverse",
    "Osp.Utils.remove_cuds_object",
    "Osp.Utils.remove_then_prune"
   ],
   "note": "All reachable core sessions whose relationships are below cuba:relationship (Onto.WF; delete_dangling_without_top shows what happens otherwise)."
  },
  {
   "property": "C75",
   "status": "proved",
   "theorems": [
    "Osp.Show.pretty_print_exact",
    "Osp.Show.pretty_print_text",
    "Osp.Show.pretty_print_sorted",
    "Osp.Show.pretty_print_fails",
    "Osp.Show.Ex.prints",
    "Osp.Show.Ex.unnamed_object_breaks_printing"
   ],
   "note": "All reachable core sessions, all texts; Python's recursion limit is not modelled. Ex.prints: the text in the layout of the documentation."
  },
  {
   "property": "C76",
   "status": "proved",
   "theorems": [
    "Osp.Show.dot_exact",
    "Osp.Show.dot_faithful",
    "Osp.Show.same_short_name",
    "Osp.Show.Ex.short_names_merge"
   ],
   "note": "All reachable core sessions; the texts of the labels and graphviz are not modelled. Short names can clash (Ex.short_names_merge)."
  },
  {
   "property": "C77",
   "status": "proved",
   "theorems": [
    "Osp.Camel.convert_spec",
    "Osp.Camel.names_taken",
    "Osp.Camel.toCamelCase_spec",
    "Osp.Camel.references_match",
    "Osp.Camel.asked_once",
    "Osp.Camel.cuba_itself_inconsistent",
    "Osp.Camel.default_rel_not_renamed",
    "Osp.Camel.description_taken_for_entity",
    "Osp.Camel.convert_refused",
    "Osp.Camel.cuba_words",
    "Osp.Camel.convert_bad_requirements"
   ],
   "note": "All documents and answers; references_match needs a namespace other than cuba (cuba_itself_inconsistent). What counts as entity name is what the code takes for one: also descriptions (description_taken_for_entity), but not the default relationship of the document (default_rel_not_renamed)."
  },
  {
   "property": "C78",
   "status": "partial",
   "theorems": [
    "Osp.Camel.converts_partial",
    "Osp.Camel.entities_kept_partial",
    "Osp.Camel.definitions_kept_partial",
    "Osp.Camel.newName_injective",
    "Osp.Camel.camel_injective",
    "Osp.Camel.example_converts",
    "Osp.Camel.definition_lost",
    "Osp.Camel.cycle_not_converted"
   ],
   "note": "Success: all documents without cycles and undefined entities that are less deep than the recursion limit (cycle_not_converted). No loss: all names in which every underscore is followed by a capital letter; false for others (definition_lost: A_1 and A1)."
  },
  {
   "property": "C79",
   "status": "proved",
   "theorems": [
    "Osp.Recycle.change_oclass_exact",
    "Osp.Recycle.change_oclass_coherent_iff",
    "Osp.Recycle.change_oclass_refused",
    "Osp.Recycle.change_oclass_unconvertible",
    "Osp.Recycle.move_to_city",
    "Osp.Recycle.moved_person_forgets_friends",
    "Osp.Recycle.change_oclass_then_delete_dangles",
    "Osp.Recycle.refused_change_two_classes",
    "Osp.Recycle.retype_missing"
   ],
   "note": "Core sessions. Exact effect in all cases: success, refused values (an object with neighbours ends up with two classes), values that cannot be converted (the old values and links are lost)."
  },
  {
   "property": "C80",
   "status": "partial",
   "theorems": [
    "Osp.Recycle.recycle_fixing_partial",
    "Osp.Recycle.recycle_fixing_fails",
    "Osp.Recycle.unlink_succeeds",
    "Osp.Recycle.unlink_fails",
    "Osp.Recycle.unrelated_left",
    "Osp.Recycle.recycle_keeping",
    "Osp.Recycle.recycle_new",
    "Osp.Recycle.recycle_new_fails",
    "Osp.Recycle.recycle_depends_on_order",
    "Osp.Recycle.recycle_self_link_fails",
    "Osp.Recycle.recycle_new_bad_value",
    "Osp.Recycle.recycle_new_zero"
   ],
   "note": "Core sessions. False in general with fix_neighbors: RuntimeError if a relationship has no link left when its turn comes, which depends on the order of a set (recycle_depends_on_order) or happens in every order (recycle_self_link_fails). Proved: the exact condition for success, the exact effect in both cases, and that unrelated relationships and no link to itself suffice."
  },
  {
   "property": "C81",
   "status": "proved",
   "theorems": [
    "Osp.Connect.credentials_removed",
    "Osp.Connect.address_unchanged",
    "Osp.Connect.connection_independent",
    "Osp.Connect.auth_reaches_session",
    "Osp.Connect.at_sign_in_password",
    "Osp.Connect.wrong_host",
    "Osp.Connect.password_not_decoded",
    "Osp.Connect.empty_credentials_kept"
   ],
   "note": "urlparse is modelled for texts without white space and control characters. An unescaped @ in the password (not a valid URI) sends the client to a host taken from the password (at_sign_in_password, for all such texts); an escaped one is not decoded, so a password with @ cannot be used."
  },
  {
   "property": "C82",
   "status": "proved",
   "theorems": [
    "Osp.Connect.initialised_once",
    "Osp.Connect.handshake_first",
    "Osp.Connect.root_not_pending",
    "Osp.Connect.pending_since",
    "Osp.Connect.transfer_sends_pending",
    "Osp.Connect.forwarded_is_executed",
    "Osp.Connect.other_names_not_sent",
    "Osp.Connect.failed_init_is_stuck",
    "Osp.Connect.stuck_forever",
    "Osp.Connect.Ex.wrong_password"
   ],
   "note": "The client over the server model of Verif/Server, one connection (others do not matter by C08). The contents of the requests other than the initialisation are in Verif/Sync. Pending objects of a call that fails at the server are lost (Ex.wrong_password)."
  },
  {
   "property": "C83",
   "status": "proved",
   "theorems": [
    "Osp.Draw.draw_exact",
    "Osp.Draw.draw_inverses",
    "Osp.Draw.Ex.drawing",
    "Osp.Draw.Ex.automatic_inverse_depends_on_order",
    "Osp.Draw.coloured_in_labelled"
   ],
   "note": "All ontologies (as answers to the queries), entities identified with their texts; labels and graphviz are not modelled, relationships have their inverses already. Recorded: whether the edge to an automatically created inverse is drawn depends on the enumeration order (Ex.automatic_inverse_depends_on_order)."
  },
  {
   "property": "C84",
   "status": "proved",
   "theorems": [
    "Osp.Sim.simulation_exact",
    "Osp.Sim.person_ages_and_moves",
    "Osp.Sim.changed_simulation_refused",
    "Osp.Sim.changed_simulation_stuck",
    "Osp.Sim.ex_scene",
    "Osp.Sim.ex_simulation",
    "Osp.Sim.ex_steps_fixed",
    "Osp.Sim.ex_no_city",
    "Osp.Sim.ex_friends",
    "Osp.Sim.nameless_key",
    "Osp.Sim.loadCity_missing",
    "Osp.Sim.run_refused",
    "Osp.Sim.loadWrapper_missing",
    "Osp.Sim.refreshAll_error",
    "Osp.Sim.applyLoop_error",
    "Osp.Sim.getPerson_exact"
   ],
   "note": "The content of the session is the graph of Verif.Cuds, the move is Recycle.moveToCity (change_oclass, remove, add). Loading is an operation that may happen at any time; the expiry bookkeeping that triggers it is in Verif.Sess. Outside the stated shape the code misbehaves: ex_no_city (IndexError on every load), ex_friends (asymmetric links), ex_steps_fixed (numSteps cannot be changed between runs)."
  },
  {
   "property": "C85",
   "status": "proved",
   "theorems": [
    "Osp.Persist.commit_exact",
    "Osp.Persist.load_exact",
    "Osp.Persist.loadAll_exact",
    "Osp.Persist.connect_exact",
    "Osp.Persist.byOclass_exact",
    "Osp.Persist.byOclasses_exact",
    "Osp.Persist.history_exact",
    "Osp.Persist.committed_seen",
    "Osp.Persist.b1_ok",
    "Osp.Persist.b2_ok",
    "Osp.Persist.evs_ok",
    "Osp.Persist.ex_third_session",
    "Osp.Persist.stale_type_kept",
    "Osp.Persist.added_is_merged",
    "Osp.Persist.literal_iris",
    "Osp.Persist.clash_confuses",
    "Osp.Persist.fetch_error",
    "Osp.Persist.loadByOclasses_stops"
   ],
   "note": "Over the tables of Verif.Tables. One session at a time; commits that fail in the database are outside (Tables.rollback_corrupts_namespaces). Findings outside the scope: stale_type_kept, added_is_merged, literal_iris, clash_confuses."
  },
  {
   "property": "C86",
   "status": "proved",
   "theorems": [
    "Osp.Full.export_exact",
    "Osp.Full.export_args",
    "Osp.Full.customTriples_exact",
    "Osp.Full.names_inCuba",
    "Osp.Full.inCuba_iri",
    "Osp.Full.skip_keeps_objects",
    "Osp.Full.import_exact",
    "Osp.Full.import_export",
    "Osp.Full.import_not_loaded",
    "Osp.Full.full_exact",
    "Osp.Full.connect_fresh",
    "Osp.Full.database_exact",
    "Osp.Full.history_export",
    "Osp.Full.again",
    "Osp.Full.ex_export",
    "Osp.Full.ex_onto_only",
    "Osp.Full.ex_full",
    "Osp.Full.ex_database",
    "Osp.Full.import_loses",
    "Osp.Full.import_text",
    "Osp.Full.dangling_raises"
   ],
   "note": "The traversal over the tables of Verif.Tables and the loading of Verif.Persist. Python's recursion limit is not modelled. Findings: import_loses (imported objects are not registered: they cannot be loaded), import_text, dangling_raises."
  },
  {
   "property": "C87",
   "status": "proved",
   "theorems": [
    "Osp.Neighbor.target_get_exact",
    "Osp.Neighbor.target_set_exact",
    "Osp.Neighbor.target_set_get",
    "Osp.Neighbor.target_del_exact",
    "Osp.Neighbor.update_exact",
    "Osp.Neighbor.target_iter_exact",
    "Osp.Neighbor.target_items_exact",
    "Osp.Neighbor.target_eq_exact",
    "Osp.Neighbor.rel_set_exact",
    "Osp.Neighbor.rel_set_keys",
    "Osp.Neighbor.rel_set_refused",
    "Osp.Neighbor.rel_del_exact",
    "Osp.Neighbor.rel_iter_exact",
    "Osp.Neighbor.rel_bool_exact",
    "Osp.Neighbor.rel_bool_keys",
    "Osp.Neighbor.rel_eq_exact",
    "Osp.Neighbor.add_direct_exact",
    "Osp.Neighbor.remove_direct_exact",
    "Osp.Neighbor.ex_get",
    "Osp.Neighbor.ex_set",
    "Osp.Neighbor.ex_items",
    "Osp.Neighbor.ex_eq",
    "Osp.Neighbor.ex_add",
    "Osp.Neighbor.refused_assignment_loses",
    "Osp.Neighbor.entry_retypes",
    "Osp.Neighbor.bool_stale",
    "Osp.Neighbor.absent_keys",
    "Osp.Neighbor.order_matters"
   ],
   "note": "Findings: refused_assignment_loses, entry_retypes, bool_stale, absent_keys, order_matters."
  },
  {
   "property": "C88",
   "status": "proved",
   "theorems": [
    "Osp.Equal.cuds_eq_iff",
    "Osp.Equal.cuds_eq_same_graph",
    "Osp.Equal.cuds_eq_sessions",
    "Osp.Equal.eq_kinds",
    "Osp.Equal.entity_eq_iff",
    "Osp.Equal.ns_eq_iff",
    "Osp.Equal.eq_equivalence",
    "Osp.Equal.eq_hash",
    "Osp.Equal.hash_stable",
    "Osp.Equal.ns_eq_other",
    "Osp.Equal.in_set_iff",
    "Osp.Equal.get_subtree_objects",
    "Osp.Equal.default_rel_exact",
    "Osp.Equal.default_rel_raises_once",
    "Osp.Equal.ex_eq",
    "Osp.Equal.equal_with_other_content",
    "Osp.Equal.equality_depends_on_order",
    "Osp.Equal.lost_in_set",
    "Osp.Equal.ex_collision",
    "Osp.Equal.entities_confused",
    "Osp.Equal.namespace_comparison_asymmetric",
    "Osp.Equal.ex_default_rel",
    "Osp.Equal.ex_subtree"
   ],
   "note": "Findings: equality_depends_on_order, lost_in_set, entities_confused, namespace_comparison_asymmetric, default_rel_raises_once."
  },
  {
   "property": "C89",
   "status": "proved",
   "theorems": [
    "Osp.Stmt.where_means",
    "Osp.Stmt.where_none",
    "Osp.Stmt.join_used_alias",
    "Osp.Stmt.select_statement",
    "Osp.Stmt.select_rows",
    "Osp.Stmt.insert_statement",
    "Osp.Stmt.update_statement",
    "Osp.Stmt.delete_statement",
    "Osp.Stmt.select_types",
    "Osp.Stmt.select_rels",
    "Osp.Stmt.select_data",
    "Osp.Stmt.query_plain",
    "Osp.Stmt.remove_plain",
    "Osp.Stmt.delete_types",
    "Osp.Stmt.delete_rels",
    "Osp.Stmt.delete_data",
    "Osp.Stmt.delete_all",
    "Osp.Stmt.lookup_cuds",
    "Osp.Stmt.lookup_entity",
    "Osp.Stmt.lookup_namespaces",
    "Osp.Stmt.insert_row",
    "Osp.Stmt.insert_data",
    "Osp.Stmt.insert_type",
    "Osp.Stmt.insert_rel",
    "Osp.Stmt.insert_cuds",
    "Osp.Stmt.insert_entity",
    "Osp.Stmt.insert_namespace",
    "Osp.Stmt.exEncodes",
    "Osp.Stmt.insert_refused",
    "Osp.Stmt.delete_refused",
    "Osp.Stmt.untyped_condition",
    "Osp.Stmt.wrong_object"
   ],
   "note": "Values have the type of their column (Fits); the meaning of SQL statements is a small relational semantics in Stmt/Spec."
  },
  {
   "property": "C90",
   "status": "partial",
   "theorems": [
    "Osp.Value.convert_typed",
    "Osp.Value.convert_kept",
    "Osp.Value.convert_idem",
    "Osp.Value.convert_basic_and_back",
    "Osp.Value.text_read",
    "Osp.Value.bool_text",
    "Osp.Value.int_text",
    "Osp.Value.int_float",
    "Osp.Value.uuid_int",
    "Osp.Value.uuid_bytes",
    "Osp.Value.string_limit",
    "Osp.Value.none_value",
    "Osp.Value.new_uid",
    "Osp.Value.set_stores",
    "Osp.Value.set_refused",
    "Osp.Value.set_refused_iff",
    "Osp.Value.set_get",
    "Osp.Value.set_what_was_read",
    "Osp.Value.new_object",
    "Osp.Value.new_object_iff",
    "Osp.Value.export_same_partial",
    "Osp.Value.export_uuid",
    "Osp.Value.sqlite_bool",
    "Osp.Value.sqlite_int",
    "Osp.Value.sqlite_float",
    "Osp.Value.sqlite_limited",
    "Osp.Value.sqlite_text",
    "Osp.Value.sqlite_uuid",
    "Osp.Value.default_same",
    "Osp.Value.default_differs",
    "Osp.Value.bool_of_int",
    "Osp.Value.bool_of_text",
    "Osp.Value.float_of_large",
    "Osp.Value.get_missing"
   ],
   "note": "False of the code: the text of a bool is not read back (bool_text), a UUID becomes a text when it is sent or exported (export_uuid) and cannot be committed (sqlite_uuid), ints over 64 bits, nan and texts that look like numbers do not survive sqlite (sqlite_int, sqlite_float, sqlite_text), defaults of another type than the attribute act differently from values (default_differs)."
  },
  {
   "property": "C91",
   "status": "partial",
   "theorems": [
    "Osp.Setup.init_ok_iff",
    "Osp.Setup.init_tables_partial",
    "Osp.Setup.init_indexes",
    "Osp.Setup.init_again",
    "Osp.Setup.init_refused",
    "Osp.Setup.yaml_supported",
    "Osp.Setup.shapeless_vector_fails",
    "Osp.Setup.foreign_keys",
    "Osp.Setup.clear_order",
    "Osp.Setup.clearLocal_exact",
    "Osp.Setup.clear_exact",
    "Osp.Setup.clear_rolls_back",
    "Osp.Setup.failed_clear_empties_session",
    "Osp.Setup.data_statements",
    "Osp.Setup.wide_vector_fails",
    "Osp.Setup.example_ok",
    "Osp.Setup.example_vector",
    "Osp.Setup.example_clear",
    "Osp.Setup.text_cuds",
    "Osp.Setup.text_boolean",
    "Osp.Setup.text_index",
    "Osp.Setup.untyped_column",
    "Osp.Setup.custom_exact"
   ],
   "note": "False of the code for some ontologies: vectors with more than 1998 elements (wide_vector_fails, init_ok_iff) and vectors without sizes (shapeless_vector_fails) make every session fail; a failed clear leaves the session empty and the database full (failed_clear_empties_session). init_tables_partial is for sessions that open."
  },
  {
   "property": "C92",
   "status": "partial",
   "theorems": [
    "Osp.Remote.remote_refines_partial",
    "Osp.Remote.remote_commit_stores_partial",
    "Osp.Remote.remote_like_local_partial",
    "Osp.Remote.step_good",
    "Osp.Remote.connect_good",
    "Osp.Remote.wrapper_gets_both_values",
    "Osp.Remote.lost_commit",
    "Osp.Remote.reload_revives",
    "Osp.Remote.along3",
    "Osp.Remote.along4",
    "Osp.Remote.local4",
    "Osp.Remote.unreadable",
    "Osp.Remote.query_refines_partial",
    "Osp.Remote.query_adds_partial",
    "Osp.Remote.query_discards_changes",
    "Osp.Remote.query_discards_failed_commit",
    "Osp.Remote.query_revives",
    "Osp.Remote.query_like_local_partial",
    "Osp.Remote.loads_revives",
    "Osp.Remote.loadMany_one",
    "Osp.Remote.qstep_good",
    "Osp.Remote.along5",
    "Osp.Remote.along6",
    "Osp.Remote.local6",
    "Osp.Remote.query_error",
    "Osp.Remote.query_unopened"
   ],
   "note": "False of the code if the request of a commit is lost (lost_commit), if a wrapper is opened with other attribute values than the stored ones (wrapper_gets_both_values: two values), if a deleted object is loaded before the commit (reload_revives), and if the backend fails in the last step of a commit (C42). Objects are identified with uids, types of neighbours sent along are not modelled. A query that finds an object with uncommitted changes discards them (query_discards_changes)."
  },
  {
   "property": "C93",
   "status": "proved",
   "theorems": [
    "Osp.Fields.yaml_attributes_exact",
    "Osp.Fields.yaml_call_exact",
    "Osp.Fields.own_exact",
    "Osp.Fields.Parsed.own_doc",
    "Osp.Fields.Parsed.own_old",
    "Osp.Fields.Parsed.superclasses",
    "Osp.Fields.Ex.unseen",
    "Osp.Fields.Ex.tidy",
    "Osp.Fields.Ex.not_nothing",
    "Osp.Fields.Ex.town_attributes",
    "Osp.Fields.Ex.default_no_help",
    "Osp.Fields.Ex.order_decides",
    "Osp.Fields.Ex.zero_loses",
    "Osp.Fields.Ex.dangling_raises",
    "Osp.Fields.Ex.all_values_demanded",
    "Osp.Fields.terms_standard",
    "Osp.Fields.truthy_exact",
    "Osp.Fields.restriction_datatype_exact"
   ],
   "note": "Hypotheses: the document satisfies C67-C70 (Proper, Ready), its entities do not occur in the graph before, restrictions in the graph before are blank nodes that name their property, and the class is not below owl:Nothing."
  },
  {
   "property": "C94",
   "status": "proved",
   "theorems": [
    "Osp.Pico.pico_history",
    "Osp.Pico.pico_sound",
    "Osp.Pico.pico_install_exact",
    "Osp.Pico.pico_overwrite_exact",
    "Osp.Pico.pico_uninstall_exact",
    "Osp.Pico.pico_uninstall_all",
    "Osp.Pico.pico_list_exact",
    "Osp.Pico.pico_never_raises",
    "Osp.Pico.Ex.pathFree",
    "Osp.Pico.Ex.reloads",
    "Osp.Pico.Ex.history",
    "Osp.Pico.Ex.computed",
    "Osp.Pico.Ex.list_printed",
    "Osp.Pico.Ex.refused_reported",
    "Osp.Pico.Ex.package_named_all",
    "Osp.Pico.Ex.unfit_loses"
   ],
   "note": "Hypotheses: what is written can be read again (Reloads), parsing an RDF package depends on the content and not on the place of its file (PathFree), package names can be stored (Fit, Undotted); without Fit a failing command can lose packages (unfit_loses). Findings: the exit status of a failing command says success; a package called all cannot be uninstalled alone."
  },
  {
   "property": "C95",
   "status": "partial",
   "theorems": [
    "Osp.Migrate.migration_keeps_partial",
    "Osp.Migrate.migrated_once",
    "Osp.Migrate.no_migration",
    "Osp.Migrate.failed_migration_loses",
    "Osp.Migrate.incomplete_lost",
    "Osp.Migrate.requirement_outside_lost",
    "Osp.Migrate.rename_fails_loses",
    "Osp.Migrate.killed_while_moving",
    "Osp.Migrate.Ex.old_old",
    "Osp.Migrate.Ex.complete_old",
    "Osp.Migrate.Ex.parsable_old",
    "Osp.Migrate.Ex.computed",
    "Osp.Migrate.Ex.cuba_required_lost",
    "Osp.Migrate.Ex.second_rename_fails",
    "Osp.Migrate.Ex.first_rename_fails",
    "Osp.Migrate.Ex.nothing_installed"
   ],
   "note": "Missing, because false of the code: the files are moved to a temporary directory that is deleted also if the migration fails, so every failure after the first move loses ontologies (failed_migration_loses, rename_fails_loses); if the requirements are not among the old packages (CUBA does not count) all are lost and the import raises nothing (incomplete_lost). Proved: with all files movable, requirements complete and every order parsable, the migration succeeds and is exact."
  },
  {
   "property": "C96",
   "status": "proved",
   "theorems": [
    "Osp.Names.access_agrees",
    "Osp.Names.any_spelling",
    "Osp.Names.found_iff",
    "Osp.Names.iter_exact",
    "Osp.Names.own_attribute_hides",
    "Osp.Names.same_prefix_shadowed",
    "Osp.Names.namespace_called_load",
    "Osp.Names.empty_prefix"
   ],
   "note": "Upper and lower case are those of ASCII. Findings: of two namespaces whose prefixes differ only in case only the last is found (same_prefix_shadowed); a namespace called like an attribute of the registry (load, get, clear, store, from_iri, ...) cannot be imported under this spelling (own_attribute_hides, namespace_called_load)."
  },
  {
   "property": "C97",
   "status": "partial",
   "theorems": [
    "Osp.Multi.last_commit_wins",
    "Osp.Multi.uncommitted_invisible",
    "Osp.Multi.no_dirty_reads_partial",
    "Osp.Multi.expired_shows_latest",
    "Osp.Multi.all_expired",
    "Osp.Multi.lost_update",
    "Osp.Multi.stale_read",
    "Osp.Multi.dirty_after_late_failure"
   ],
   "note": "Any number of sessions, every interleaving of calls; a call is not interrupted. False after a commit that fails in its very last step: the session then shows its changes as if they were stored (dirty_after_late_failure). Findings: there is no protection against lost updates (lost_update), and without expire a session goes on showing overwritten contents (stale_read)."
  },
  {
   "property": "C98",
   "status": "proved",
   "theorems": [
    "Osp.Files.fileCuds_exact",
    "Osp.Files.fileCuds_order",
    "Osp.Files.server_files",
    "Osp.Files.client_files",
    "Osp.Files.deleted_ignored",
    "Osp.Files.hash_whole",
    "Osp.Files.hashDir_exact",
    "Osp.Files.known_file",
    "Osp.Files.ex_sent",
    "Osp.Files.ex_hyps",
    "Osp.Files.ex_server",
    "Osp.Files.ex_refused",
    "Osp.Files.ex_hashDir"
   ],
   "note": "The file system is that of C62. hashlib is trusted in one respect: several updates are one update with the concatenation. A file that occurs several times in an answer of the server is sent once, because its fingerprint is known after the first time (C05)."
  },
  {
   "property": "C99",
   "status": "partial",
   "theorems": [
    "Osp.Clients.clients_refine_partial",
    "Osp.Clients.stored_until_written_partial",
    "Osp.Clients.last_commit_wins_partial",
    "Osp.Clients.expired_read_latest_partial",
    "Osp.Clients.along2",
    "Osp.Clients.case2",
    "Osp.Clients.lost_update",
    "Osp.Clients.reload_merges",
    "Osp.Clients.deletion_undone"
   ],
   "note": "Partial because of what normal use (Safe) excludes: modifying an object somebody else has deleted, loading an object again that the client had (reload_merges: old and new types are merged), the exclusions of C92. lost_update and deletion_undone show what the last commit wins means."
  },
  {
   "property": "C100",
   "status": "proved",
   "theorems": [
    "Osp.Frames.interleaving_is_sequential",
    "Osp.Frames.order_respects_time",
    "Osp.Frames.client_requests_in_order",
    "Osp.Frames.client_gets_its_answers",
    "Osp.Frames.step_same",
    "Osp.Frames.never_dropped",
    "Osp.Frames.always_served",
    "Osp.Frames.client_served_in_full",
    "Osp.Frames.private_undisturbed",
    "Osp.Frames.mixed_served",
    "Osp.Frames.torn_file",
    "Osp.Frames.desk_fits",
    "Osp.Frames.desk_private"
   ],
   "note": "The files sent with an answer are read block by block between awaits: torn_file shows that a request of another connection that changes such a file in between leaves the client with a misread answer, and every later answer misread."
  },
  {
   "property": "C101",
   "status": "proved",
   "theorems": [
    "Osp.Access.both_spellings",
    "Osp.Access.get_value",
    "Osp.Access.get_missing",
    "Osp.Access.get_sources",
    "Osp.Access.set_value",
    "Osp.Access.set_refused",
    "Osp.Access.set_get",
    "Osp.Access.new_iff",
    "Osp.Access.no_class",
    "Osp.Access.refresh_fails",
    "Osp.Access.private_set",
    "Osp.Access.del_keeps",
    "Osp.Access.members_kept",
    "Osp.Access.last_write",
    "Osp.Access.untouched",
    "Osp.Access.new_get",
    "Osp.Access.shadowed",
    "Osp.Access.parameters_taken",
    "Osp.Access.history_example",
    "Osp.Access.wrapper_example",
    "Osp.Access.odd_example",
    "Osp.Access.low_unreachable",
    "Osp.Access.refresh_example"
   ],
   "note": "Outside the stated conditions: members_kept, shadowed, private_set and parameters_taken say what happens to attributes called like a member of Cuds, like another attribute in lower case, with an underscore, or like a parameter of the constructor."
  },
  {
   "property": "C102",
   "status": "partial",
   "theorems": [
    "Osp.Links.read_marks",
    "Osp.Links.links_agree_partial",
    "Osp.Links.changed_database_links_agree_partial",
    "Osp.Links.reached",
    "Osp.Links.premises",
    "Osp.Links.loaded_is",
    "Osp.Links.refresh_example",
    "Osp.Links.deleted_example",
    "Osp.Links.new_object_half_link",
    "Osp.Links.mixed_load_half_link",
    "Osp.Links.wrapper_half_link",
    "Osp.Links.come_and_go_half_link"
   ],
   "note": "Proved for objects other than the wrapper, one change of the database, and loads of expired objects only. Beyond that the claim is false of the code: new_object_half_link, mixed_load_half_link, wrapper_half_link and come_and_go_half_link."
  },
  {
   "property": "C103",
   "status": "proved",
   "theorems": [
    "Osp.Branch.build",
    "Osp.Branch.build_iff",
    "Osp.Branch.tree",
    "Osp.Branch.exOnto_wf",
    "Osp.Branch.town_premises",
    "Osp.Branch.town_built",
    "Osp.Branch.twice",
    "Osp.Branch.missing"
   ],
   "note": "Objects of one session; trees of objects of another session are copied by add (C24)."
  },
  {
   "property": "C104",
   "status": "partial",
   "theorems": [
    "Osp.Lazy.turn",
    "Osp.Lazy.in_order",
    "Osp.Lazy.uninterrupted",
    "Osp.Lazy.changes_survive_partial",
    "Osp.Lazy.marks_taken",
    "Osp.Lazy.ex_turn",
    "Osp.Lazy.ex_given",
    "Osp.Lazy.exChange_careful",
    "Osp.Lazy.removed_meanwhile",
    "Osp.Lazy.stale_read",
    "Osp.Lazy.given_up",
    "Osp.Lazy.lost_change",
    "Osp.Lazy.deleted_comes_back"
   ],
   "note": "The order, what each step shows, that nothing else changes and the agreement with load are proved for all histories. That no step throws away a change is proved for users who do not change objects a running iteration will still reload and do not begin iterations over objects they have deleted (changes_survive_partial); without that it is false of the code (lost_change, deleted_comes_back)."
  },
  {
   "property": "C105",
   "status": "partial",
   "theorems": [
    "Osp.Backup.in_place_partial",
    "Osp.Backup.original_survives_partial",
    "Osp.Backup.in_place_succeeds",
    "Osp.Backup.elsewhere",
    "Osp.Backup.tool_in_place",
    "Osp.Backup.search_first",
    "Osp.Backup.search_ends",
    "Osp.Backup.faithful0",
    "Osp.Backup.atMost0",
    "Osp.Backup.alias_loses_original",
    "Osp.Backup.kinds_lose_original",
    "Osp.Backup.other_output_lost",
    "Osp.Backup.vanished",
    "Osp.Backup.interrupted_exact"
   ],
   "note": "False of the code if the output is another path of the same file (alias_loses_original) or a Path while the file was given as a text (kinds_lose_original): the paths are compared, not the files, and there is no backup. Other processes and permissions are not modelled."
  },
  {
   "property": "C106",
   "status": "partial",
   "theorems": [
    "Osp.Outage.failed_look",
    "Osp.Outage.failed_load",
    "Osp.Outage.repeated_load_partial",
    "Osp.Outage.repeated_load_keeps_old",
    "Osp.Outage.second_read_shows_old",
    "Osp.Outage.repeated_change_of_old",
    "Osp.Outage.refresh_recovers",
    "Osp.Outage.failed_open",
    "Osp.Outage.exHist_proper",
    "Osp.Outage.exHist_root",
    "Osp.Outage.exHist_expired",
    "Osp.Outage.exHist_done",
    "Osp.Outage.load_shows_old",
    "Osp.Outage.read_shows_old",
    "Osp.Outage.change_of_old",
    "Osp.Outage.undone_after_failure",
    "Osp.Outage.refresh_helps",
    "Osp.Outage.open_fails_silently"
   ],
   "note": "Proved for what the failing call itself does (everything in the statement), and for repeating a load of objects the session did not have. False of the code for expired objects: load takes the expiry marks before it asks the backend, so after a failure the objects count as current (repeated_load_keeps_old, second_read_shows_old), and changing one then undoes what others have stored (repeated_change_of_old, undone_after_failure). Also a wrapper whose creation failed stays in the session (failed_open). Failures inside the loading of one object are at the request for its triples, which comes before any change."
  },
  {
   "property": "C107",
   "status": "partial",
   "theorems": [
    "Osp.Down.down_atomic_partial",
    "Osp.Down.down_skipped",
    "Osp.Down.down_commit_stores_partial",
    "Osp.Down.down_offline",
    "Osp.Down.down_refused_partial",
    "Osp.Down.dstep_good",
    "Osp.Down.along",
    "Osp.Down.along_begun",
    "Osp.Down.begun_state",
    "Osp.Down.refused_in_hist",
    "Osp.Down.pending_is_read",
    "Osp.Down.made_up_for",
    "Osp.Down.outage_forgets"
   ],
   "note": "Proved for all histories in normal use (the conditions of C92) in which nobody else changes the database, with the database down during any of the calls: down_atomic_partial; down_skipped says that the refused calls leave no trace in what is expected, down_offline and down_refused_partial which calls are refused. False of the code if others change the database: a refused read removes the expiry mark, and the old content is shown afterwards (outage_forgets). The database is down for whole calls; that it fails within a call after some answers is C106, for a session without a client."
  },
  {
   "property": "C108",
   "status": "partial",
   "theorems": [
    "Osp.Copy.copy_shows",
    "Osp.Copy.copy_again",
    "Osp.Copy.copy_set",
    "Osp.Copy.copy_closed",
    "Osp.Copy.createFrom_copy",
    "Osp.Copy.storeCopy_eq",
    "Osp.Copy.copy_added_partial",
    "Osp.Copy.copy_restores_partial",
    "Osp.Copy.copy_undo_partial",
    "Osp.Copy.copy_with_content",
    "Osp.Copy.undo_example",
    "Osp.Copy.content_overwritten",
    "Osp.Copy.content_dangles",
    "Osp.Copy.copy_example",
    "Osp.Copy.set_example",
    "Osp.Copy.copy_holds",
    "Osp.Copy.copy_eq_iff",
    "Osp.Copy.copy_add_refused",
    "Osp.Copy.copy_update_refused",
    "Osp.Copy.copy_to_session_partial",
    "Osp.Copy.carried",
    "Osp.Copy.put_back"
   ],
   "note": "Reading and writing of copies is proved in full (copy_shows, copy_again, copy_set, copy_closed). Adding and updating is proved for copies of objects that had no content (no active relationship to another object than self): copy_added_partial, copy_restores_partial, and copy_undo_partial and copy_to_session_partial for all histories. For objects with content the claim is false of the code: adding the copy raises AttributeError at the first child, after the object was overwritten with the copied values, does not link it to self and leaves links to objects that do not exist in the session (copy_with_content for all sessions, content_overwritten and content_dangles as concrete cases)."
  },
  {
   "property": "C109",
   "status": "partial",
   "theorems": [
    "Osp.Killed.planned_whole",
    "Osp.Killed.left_untouched",
    "Osp.Killed.install_writes",
    "Osp.Killed.install_killed_partial",
    "Osp.Killed.install_killed_adds",
    "Osp.Killed.refused_writes_nothing",
    "Osp.Killed.clear_killed_loses",
    "Osp.Killed.install_skips",
    "Osp.Killed.killed_then_skipped",
    "Osp.Killed.turtle_steps",
    "Osp.Killed.city_stays",
    "Osp.Killed.torn",
    "Osp.Killed.turtle_succeeds",
    "Osp.Killed.turtle_skipped",
    "Osp.Killed.uninstall_killed",
    "Osp.Killed.refused_example",
    "Osp.Killed.complete_between",
    "Osp.Killed.tidy_complete",
    "Osp.Killed.turtle_complete",
    "Osp.Killed.graph_torn",
    "Osp.Killed.command_sound",
    "Osp.Killed.turtle_torn",
    "Osp.Killed.killed_good",
    "Osp.Killed.killed_repaired_partial",
    "Osp.Killed.turtle_repaired",
    "Osp.Killed.uninstall_killed_removes",
    "Osp.Killed.overwrite_killed_adds",
    "Osp.Killed.test_removed",
    "Osp.Killed.city_overwritten",
    "Osp.Killed.uninstall_killed_keeps",
    "Osp.Killed.overwrite_killed_keeps",
    "Osp.Killed.city_left",
    "Osp.Killed.turtle_left",
    "Osp.Killed.uninstall_not_repeated",
    "Osp.Killed.uninstall_lost",
    "Osp.Killed.overwrite_lost",
    "Osp.Killed.test_lost",
    "Osp.Killed.city_lost"
   ],
   "note": "Proved for install, for all crash points and any content of the torn file: install_killed_partial, install_killed_adds; refused commands: refused_writes_nothing; planned_whole says that all operations together are the command of C34/C35. False of the code: uninstall and install --overwrite remove the whole directory first, so that a kill loses all packages, also those that should stay (clear_killed_loses for all commands that get that far, uninstall_killed); and an install killed between writing the packages and saving the graph counts as done: repeating it reports success and skips the packages, whose namespaces do not exist (killed_then_skipped, turtle_skipped). A kill while graph.xml is written makes every later command raise without changing anything (graph_torn). An install killed between two operations leaves a directory in order and is completed by install --overwrite of the same files (killed_good, killed_repaired_partial). A killed uninstall brings back nothing that it removes, a killed install --overwrite adds nothing that was neither installed nor named (uninstall_killed_removes, overwrite_killed_adds), and between operations every package that is there has its old document or that of a named file (uninstall_killed_keeps, overwrite_killed_keeps). Repeating a command that was killed after the clearing does not bring the lost packages back: uninstall is refused, install --overwrite succeeds with the named packages only (uninstall_lost, overwrite_lost)."
  }
 ]
}