# Formal model of simphony/osp-core in Lean 4 — design

## Method

The code in `/repo/osp` is read as text and modelled function by function as total, computable Lean 4 functions.

* Exceptions are values: `Except PyErr α`, or an outcome that also carries the state reached when the exception was
  raised (Python does not roll back). Only the class of an exception is modelled, not its message.
* Mutable objects become state that is passed and returned; histories of calls are lists of operations, and failing
  calls are part of them.
* Iteration over a Python `set` or over an rdflib graph is modelled over lists whose order is universally quantified
  wherever the order could be observed (parameters `Order`, `Env.enum`, `Params.order`, …).
* Loops without an evident bound get fuel, and termination is a theorem (enough fuel exists and more fuel changes nothing);
  where the code does not terminate, that is a theorem too (`cyclic_never_ends`).
* What the code receives from outside and does not control (a session class, a parser, a backend, a hash function) is a
  parameter of the model, so that the theorems hold for every one of them.

Each area has `Model.lean` (the model; each definition cites file and lines), `Spec.lean` or a specification section at the
top of `Props.lean` (a small vocabulary that does not use the model's helpers), lemmas, `Props.lean` (the theorems, each
followed by an `example` in which a non-trivial state meets the hypotheses) and `Witness.lean` (concrete deviations).

When the code violates a property, the negation is proved with a concrete witness (a kernel evaluation, `decide +kernel`),
and the strongest true part is proved under the suffix `_partial` or with an explicit hypothesis that names the excluded
situation. Witnesses are findings about the code, not substitutes for proofs.

The theorems are tested with wrong programs: `seeded/LOG.jsonl` records, for each edit of a model definition, the claim
it breaks, the theorems that failed and the theorems that were tightened because they did not.

## Areas

| area (`lean/Verif/…`) | code | what is modelled | what is not |
|---|---|---|---|
| Wire | session/transport/communication_utils.py, communication_engine.py | headers, blocks, files, requests and responses over byte and frame lists; file hash tables; the receiving directory | websockets, asyncio; SHA-256 is an arbitrary function (injectivity only where stated) |
| Transport | session/transport/transport_utils.py | serializable/deserialize of values, path conversion, move_files, file transfer end to end | the JSON text layer (json.dumps/loads) and JSON-LD of rdflib are trusted; the file system is a map of path texts |
| Server | session/transport/transport_session_server.py | requests, init, handshake, disconnect, errors, for an arbitrary session class | state that sessions share outside the server (a database) |
| Sync | transport_session_client.py, transport_utils.py buffers, transport_session_server.py | client and server sessions exchanging buffers, expiry, failing requests | messages before JSON; CUDS objects as arguments of commands; type triples of neighbours |
| Sess | session/wrapper_session.py, buffers.py, db/db_wrapper_session.py, db/triplestore_wrapper_session.py, sim_wrapper_session.py | buffers, contexts, expire/refresh/load, commit with failure points, run, the database as a map from uids to contents | contents are sets of numbered triples; backends are arbitrary programs (Consume) or the triple store contract |
| Cuds | cuds.py, neighbor_dict.py, session/session.py, core_session.py | the RDF graph of a core session and the CUDS API: create, add, remove, get, iter, attributes, delete | values after conversion; class hierarchy is a parameter; one session |
| Store | cuds.py 377-590, utils/wrapper_development.py | adding/updating objects of another session: copying, fixing of neighbours, get_neighbor_diff | core sessions only; single argument; the source is only read |
| Search | session/registry.py, utils/simple_search.py, utils/general.py 15-55 | subtree, prune, search with and without depth limit, recursive deletion | search criteria are predicates on uids |
| Export | utils/general.py 178-246, transport_utils.py 284-342, wrapper_development.py 188-232 | export of a subtree to documents and import into any session | JSON-LD text (rdflib); documents are lists of triples in arbitrary order |
| Onto | ontology/entity.py, oclass.py, relationship.py, attribute.py | hierarchies, lazily created inverses, datatypes, inherited attributes, keyword arguments | names are ASCII where case matters |
| Names | ontology/namespace_registry.py, namespace.py, entity.py, case_insensitivity.py, namespaces.py | lookup by name, label, suffix and IRI; namespaces | the graph is seen through types, labels and bindings in arbitrary order; ASCII case |
| Install | ontology/installation.py, parser.py 43-230, namespace_registry.py 231-289 | directories, requirements, sorting, install, uninstall, overwrite, failures | parsing is an arbitrary function that may fail; downloads are reads; no subdirectories; pico_migrate |
| Yaml | ontology/yml/yml_validator.py, yml_keywords.py, ontology/datatypes.py | the validator for every table of formats; the datatype texts | YAML text (documents are trees); the regular expression engine is the language of the pattern |
| Ymlp | ontology/yml/yml_parser.py | the parser from document to triples | entity names that YAML reads as something else than text; triples left after a failure |
| Sql | session/db/sql_util.py, wrappers/sqlite/sqlite_session.py, ontology/datatypes.py | vector columns, table names, forbidden characters, conditions, column affinity | floats are abstract; comparison with NULL |
| Tables | session/db/sql_wrapper_session.py, sql_migrate.py | the tables as lists of rows, triples ↔ rows, removal, migration | row order is not relied on; the ontology is fixed during a history; one session per database |
| Query | session/result.py, buffers.py 81-110 | QueryResult as a state machine | — |
| Schema | utils/schema_validation.py | cardinalities, consistency, the check of a tree | CUDS objects seen through oclass, iter and get; YAML lists and dictionaries as cardinalities |
| Iri | utils/general.py 89-111, triplestore_wrapper_session.py 70-84 | uid ↔ IRI texts, substitution of the root | ASCII texts |
| Rdfp | ontology/parser.py 205-354, namespace_registry.py 106-117, 231-283 | RDF packages to triples; bound namespaces (rdflib 5 bind) over histories; namespaces.txt | the RDF/XML text; warnings; package values of undocumented types partly |
| Utils | utils/simple_search.py 50-149, session/registry.py 144-212, utils/general.py 249-279 | searches by uid, class, attribute, relationship; filters of the registry; remove_cuds_object; get_relationships_between | attribute names that are Python attributes |
| Show | utils/pretty_print.py, utils/cuds2dot.py | the printed text, line by line; nodes and edges of the drawing | graphviz; label texts of the drawing; recursion limit |
| Camel | tools/yaml2camelcase.py | conversion of the parsed document, questions to the user | reading and writing files, the backup copy; superclasses that are no lists |
| Recycle | utils/wrapper_development.py 88-123, 152-185, wrappers/simdummy/simdummy_session.py 137-142 | create_recycle and change_oclass with neighbours, both values of fix_neighbors | core sessions only (no buffers, no expiry); keyword arguments are seen through the values or the exception |
| Connect | session/transport/transport_session_client.py 36-208, session/wrapper_session.py 32-42, 412-447 | _parse_uri with urllib.parse, the constructor, _store, _send, __getattr__, _load_from_backend over the server model | temporary directories, contents of the buffers (in Sync), websockets; urllib.parse beyond ASCII, white space and ;parameters |
| Draw | tools/ontology2dot.py 32-151 | _get_subgraph, render, _add_namespace, _add_entity, _add_oclass, _add_relationship, _add_attribute, _add_edge | labels, colours of the kinds, graphviz, the command line; inverses created during the drawing |
| Sim | wrappers/simdummy/simdummy_session.py 28-203, dummy_syntactic_layer.py, sim_wrapper_session.py 23-39 | _run, _load_from_backend, _load_person, _load_city, _load_wrapper, _check_convert_to_inhabitant, _apply_added, _apply_updated, _apply_deleted, the engine, run | expiry (loads may happen at any time instead), reloading the neighbours of a person who moves; the session holds all its objects |
| Persist | triplestore_wrapper_session.py 15-107, sql_wrapper_session.py 110-147, 279-292, db_wrapper_session.py 11-67, wrapper_development.py 188-232 | _apply_added, _apply_updated, _apply_deleted, _substitute_root_iri, _substitute_zero_iri, _load_by_iri, _load_from_backend, _load_first_level, _load_by_oclass, load_by_oclass, commit, create_from_triples (without fixing neighbours) | where the buffers come from, notifications, expiry (Verif.Sess); concurrent sessions |
| Full | general.py 57-86, 113-148, simple_search.py 4-48, wrapper_session.py 160-170, core_session.py 24-26, session.py 52-66, 140-151, cuds.py 332-375, 736-759, cuba.py 6-45 | get_rdf_graph, get_custom_datatypes, get_custom_datatype_triples, _get_full_graph, _rdf_import, find_cuds_object over a database | recursion limit; expired objects; rdflib serialisation |
| Neighbor | neighbor_dict.py 12-214, cuds.py 566-589, 761-780 | the dictionaries of neighbours with their notifications, _add_direct and _remove_direct through them | a _notify_read that raises; objects of relationship triples that are no CUDS objects |
| Equal | cuds.py 85-115, 860-882, entity.py 17-64, 263-265, namespace.py 16-81, registry.py 59-85 | equality, hashes, Python sets of objects, the cached default relationship | weak references and the life time of objects; subclasses of the classes by users |
| Stmt | sql_util.py 15-175, 271-320, 374-396, sql_wrapper_session.py 20-60, 176-246, 321-389, 513-565, sqlite_session.py 66-161 | queries, conditions, text and parameters of the statements, their meaning | CREATE statements and indexes; foreign and primary keys as constraints (see Tables); convert_from of values of another type |
| Value | datatypes.py 12-94, 128-162, attribute.py 66-86, cuds.py 62-82, 793-848, sql_wrapper_session.py 149-175, 260-275, 310-319, 513-530, sql_util.py 448-464, sqlite_session.py 220-247 | conversion, literals, attribute access, export as text, sqlite cells | vectors (C36, C52); rdflib 5.0 literals and sqlite cells are written down from their documentation; non ASCII digits |
| Setup | sql_wrapper_session.py 20-96, 392-418, 499-506, 548-557, 575-607, sqlite_session.py 92-121, general.py 113-128, cuba.py 6-45 | table declarations, CREATE TABLE and CREATE INDEX, initialisation, clearing | rows are abstract; sqlite names are compared as written; SQLITE_MAX_COLUMN is a parameter; reading the namespaces is in Tables |
| Remote | transport_session_client.py 70-158, 179-202, transport_session_server.py 116-200, transport_utils.py 29-68, db_wrapper_session.py 31-47 | connecting, all calls of a client session on a database session, histories | built on Sess and Sync with their simplifications; one client per session |
| Fields | oclass.py 32-125, 151-195, namespace_registry.py 137-173 | attributes, own_attributes, _get_attributes, _get_default, _get_datatype_for_restriction read from the graph of Ymlp; the call of a class | built on Ymlp and Onto; literals as superclasses are skipped; the type checks of values are C13 |
| Pico | pico.py 10-78, namespaces.py 12-26 | install_from_terminal: all commands, the list printed, exceptions that are logged | argparse trusted; built on Install with its simplifications |
| Migrate | installation.py 196-217, namespace_registry.py 250-275, namespaces.py 12-26 | pico_migrate, load with an old installation, the RuntimeError that is only logged at import | removing and creating directories succeeds; renaming a file may fail arbitrarily; subdirectories of the old installation are not modelled; built on Install |
| Multi | db_wrapper_session.py 12-67, wrapper_session.py 70-158, 209-318 | several sessions of Sess on one database | calls are atomic; built on Sess with its simplifications |
| Clients | transport_session_server.py 55-200, transport_session_client.py 70-202, db_wrapper_session.py 12-67 | any number of clients of one server with one database, interleaved calls | built on Remote with its simplifications; requests are processed one after the other |
| Frames | communication_engine.py _serve and _decode as coroutines, with the loops of join_message, receive_files and encode_files | each await as a state, any schedule of arrivals, closings and turns | the websockets library (frames arrive whole and in order), read-ahead of buffered files, ConnectionClosedError distinguished from ConnectionClosedOK |
| Access | cuds.py __getattr__, __setattr__, __init__; oclass.py __call__, get_attribute_by_argname | Python's attribute lookup (properties, instance dictionary, methods), the conversion of values by the model of C90, keywords by that of C33, the session as arbitrary functions | names with two leading underscores, the instance attributes _session, _graph and __uid, a uid that already exists in the session, several values of one attribute (the one graph.value returns) |
| Links | wrapper_session.py _expire_neighour_diff and load; wrapper_development.py get_neighbor_diff; the model of Sess | which neighbours a reload lets expire, over any coding of triples as links | the order of the expired objects; several sessions changing the database between the reads (the finding come_and_go) |
| Branch | general.py branch on the model of Cuds.add and of the constructor | nested calls, evaluated from left to right, exceptions at once | objects of other sessions; the default relationship is a parameter of the object |
| Lazy | wrapper_session.py load 70-111 as a generator; buffers.py EngineContextIterator; cuds.py iter 332-375 and _load_cuds_objects 736-760 | the generator with its local variables (uids, missing_uids, position), any number of them, interleaved with all calls of Sess and with foreign writes | the elements remembered by QueryResult (C46); the relationships Cuds.iter computes at its beginning; other threads |
| Backup | yaml2camelcase.py 94-109, 192-206 | backup names, copying, writing, interruption after any file operation, the tool | paths lead to places given from outside; no other processes; no permissions |
| Outage | wrapper_session.py 70-158, 294-301; db_wrapper_session.py 31-67; triplestore_wrapper_session.py 42-107 | load, refresh, reads, changes, deletions, queries by class and the creation of the wrapper with a backend that fails at any request | one request per object; the failure inside the initialisation of the tables counts as one before the first request |
| Down | wrapper_session.py 70-158, 294-301; transport_session_server.py 110-160; transport_session_client.py 103-158 | a database session used through a client while the database is down during some of the calls | as C92 and C106; the database is down from the beginning to the end of a call |
| Copy | cuds.py 123-132, 181-191, 246-288, 377-431, 793-848, 870-908 | copies of an object by copy.deepcopy and pickle: what they show, which methods work on them, adding them to a session and updating with them | serialisation of the state itself (pickle, deepcopy of Python data) is taken as the identity; sessions are core sessions |
| Killed | installation.py 131-157; parser.py 68-87; namespace_registry.py 241-252 | pico commands whose process is killed at any moment | rmtree and makedirs are the removal of every file; a file being written may be left with any content; the operating system loses nothing that was written |

## Trusted base

* Lean 4.33.0's kernel. No axiom is added. `decide +kernel` is evaluated by the kernel; `native_decide` and `bv_decide` are
  not used.
* The axioms `propext`, `Classical.choice` and `Quot.sound`, at most; the table below lists them per theorem.
* The reading of `/repo` that the definitions embody, cited line by line at each definition, with the simplifications named there and below.
* What is outside osp-core is not modelled beyond the contracts written at the definitions: rdflib (a graph is a set of
  triples with pattern matching, and it writes and reads back its formats without loss), numpy (`reshape`, `tolist`),
  sqlite (tables, affinity of columns, parameters), websockets (frames arrive in order or the connection closes), PyYAML,
  `json`, `re` (a pattern matches the texts of its language), `uuid`, the file system and Python itself.
* Not modelled anywhere: concurrency inside the asyncio server beyond the interleaving of whole requests, logging, `pico` command line
  parsing, `pretty_print` layout, the ontology-to-graphviz tools, `cuba_meta`, the example wrappers other than sqlite.

### Axioms per theorem

As printed by `#print axioms` for every theorem named in MANIFEST.json. No other axiom occurs.

| claim | axioms | theorems |
|---|---|---|
| C01 | propext, Classical.choice, Quot.sound | `header_encodable_iff`, `header_roundtrip`, `header_overflow`, `header_canonical`, `header_too_short`, `file_bad_header` |
| C01 | propext, Quot.sound | `header_count_mismatch` |
| C02 | propext, Classical.choice, Quot.sound | `split_join`, `split_blocks_sized` |
| C03 | propext, Classical.choice, Quot.sound | `files_roundtrip` |
| C04 | propext, Classical.choice, Quot.sound | `request_roundtrip`, `version_rejected`, `request_truncated`, `request_stream`, `response_roundtrip`, `missing_file_stops_request`, `missing_file_desyncs_connection`, `server_bad_header`, `client_bad_header` |
| C05 | propext, Classical.choice, Quot.sound | `filter_hash_table`, `filter_decision`, `response_roundtrip` |
| C06 | propext, Classical.choice, Quot.sound | `value_roundtrip`, `reserved_changed`, `dotted_entity_lost`, `unsupported_refused`, `uuid_exact` |
| C07 | propext, Classical.choice, Quot.sound | `only_exported_methods`, `other_commands_refused`, `history_only_exported` |
| C08 | propext, Classical.choice, Quot.sound | `connections_isolated`, `sessions_not_shared` |
| C09 | propext | `newHashes_missing` |
| C09 | propext, Classical.choice, Quot.sound | `closed_exactly_once_partial`, `disconnect_removes_session`, `every_request_answered`, `exception_reported`, `failed_reinit_keeps_closed_session`, `session_leaked`, `failing_close_keeps_session`, `newSession_exact`, `newSession_no_auth` |
| C10 | propext, Classical.choice, Quot.sound | `buffers_disjoint_partial`, `reused_uid_in_two_buffers` |
| C11 | propext, Classical.choice, Quot.sound | `buffers_net_change_partial`, `second_deletion_lost`, `load_resurrects_deleted` |
| C12 | propext, Classical.choice, Quot.sound | `expire_exact`, `load_fresh_partial`, `pending_survive_partial`, `pending_object_overwritten_by_load`, `query_by_class_overwrites_pending`, `refresh_error`, `loadAll_error` |
| C13 | propext, Classical.choice, Quot.sound | `engine_keeps_user_buffers`, `loading_keeps_user_buffers` |
| C14 | propext, Classical.choice, Quot.sound | `success_consumes_partial`, `failure_keeps_or_loses`, `failed_commit_rolls_back`, `first_run_drops_changes`, `failed_save_leaves_file_open`, `commit_exact`, `consume_no_root` |
| C15 | propext, Classical.choice, Quot.sound | `one_wrapper_partial`, `one_wrapper_created`, `received_exception`, `no_wrapper_no_load` |
| C15 | propext, Quot.sound | `rejected_creation_no_effect`, `root_never_changes`, `received_non_wrapper_becomes_root`, `rejected_second_wrapper_registered` |
| C16 | propext, Classical.choice, Quot.sound | `history_simulates`, `reachable_view`, `links_symmetric` |
| C16 | propext, Quot.sound | `delete_dangling_without_top` |
| C17 | propext, Classical.choice, Quot.sound | `add_exact`, `history_simulates` |
| C18 | propext, Classical.choice, Quot.sound | `remove_exact`, `history_simulates` |
| C19 | propext, Classical.choice, Quot.sound | `get_with_rel_once`, `get_with_rel_uids` |
| C19 | propext, Quot.sound | `get_by_filter`, `get_by_uids`, `get_uids_and_oclass`, `get_with_rel`, `get_uid_return_rel_raises` |
| C20 | propext, Classical.choice, Quot.sound | `setAttr_last_write_wins`, `attributes_single_valued` |
| C20 | propext, Quot.sound | `getAttr_view`, `create_existing_uid_corrupts` |
| C21 | propext, Classical.choice, Quot.sound | `delete_exact` |
| C21 | propext, Quot.sound | `delete_dangling_without_top` |
| C22 | propext, Classical.choice, Quot.sound | `prune_exact`, `prune_all_no_dangling`, `registry_prune_exact` |
| C22 | propext, Quot.sound | `prune_filter_leaves_dangling_links`, `ex_registry_prune` |
| C23 | propext, Classical.choice, Quot.sound | `get_subtree_exact` |
| C24 | propext, Classical.choice, Quot.sound | `add_from_other_session`, `update_from_other_session`, `import_coherent`, `setup_of_reachable`, `setup_example` |
| C24 | propext, Quot.sound | `add_from_refused`, `add_example`, `active_link_to_self_one_way`, `stale_type_second_class` |
| C25 | propext, Classical.choice, Quot.sound | `old_parents_kept_partial`, `old_parents_lost_poor`, `rich_example`, `poor_example` |
| C25 | propext, Quot.sound | `old_parent_lost`, `rich_kept`, `fixOldNeighbors_missing`, `createFrom_no_class` |
| C26 | propext, Classical.choice, Quot.sound | `find_all_exact`, `find_first_exact`, `find_depth_sound` |
| C27 | propext, Classical.choice, Quot.sound | `find_depth_complete_partial` |
| C27 | propext, Quot.sound | `find_depth_incomplete` |
| C28 | propext | `direct_no_blank`, `closure_no_blank`, `ex_no_blank` |
| C28 | propext, Classical.choice, Quot.sound | `closure_exact` |
| C28 | propext, Quot.sound | `direct_exact` |
| C29 | propext | `dual_fails_at_top` |
| C29 | propext, Classical.choice, Quot.sound | `subclass_refl`, `subclass_trans`, `superclass_trans`, `isSubclassOf_iff`, `isSuperclassOf_iff`, `subclass_superclass_dual_partial`, `top_attribute_no_subs` |
| C30 | propext | `two_inverses_break_involution`, `equal_labels_break_involution` |
| C30 | propext, Classical.choice, Quot.sound | `inverse_involution`, `inverse_conservative` |
| C31 | propext, Classical.choice, Quot.sound | `created_inverse_below` |
| C32 | propext, Quot.sound | `datatype_exact` |
| C33 | propext | `case_clash_steals_keyword`, `force_drops_keyword` |
| C33 | propext, Classical.choice, Quot.sound | `constructor_arguments_exact`, `no_keyword_dropped`, `ex_argname` |
| C33 | propext, Quot.sound | `constructor_arguments_force`, `attributeByArgname_exact` |
| C34 | propext | `requirements_exact` |
| C34 | propext, Classical.choice, Quot.sound | `sortFor_ok`, `sortFor_iff`, `install_exact`, `install_without_order_raises`, `install_with_order_succeeds`, `install_fails_directory_kept`, `overwrite_exact`, `overwrite_fails_directory_kept`, `good_history`, `requirements_installed`, `restart_same`, `installed_twice_named_keyError`, `rdf_with_requirements_not_installable`, `requirement_spelling`, `capital_wipes_graph`, `package_named_graph`, `dotted_namespace`, `getIdentifier_exact`, `rdfPath_exact`, `ex_rdfPath`, `filePath_exact`, `parse_failed` |
| C35 | propext, Classical.choice, Quot.sound | `uninstall_exact`, `meant_exact`, `uninstall_fails_directory_kept_partial`, `uninstall_unknown_raises`, `uninstall_needed_raises`, `uninstall_succeeds`, `refused_uninstall_empties_registry`, `other_format_blocks_uninstall`, `refused_uninstall_loses_packages`, `turtle_blocks` |
| C36 | propext, Classical.choice, Quot.sound | `vector_columns_roundtrip_partial`, `empty_vector_lost`, `misleading_column_name`, `row_without_datatype`, `no_dimensions` |
| C37 | propext, Classical.choice, Quot.sound | `table_name_determines_partial`, `table_name_injective_partial`, `unsupported_datatype_refused`, `created_datatypes_supported`, `table_clash`, `tables_written_out`, `no_other_table` |
| C38 | propext | `quote_not_rejected` |
| C38 | propext, Classical.choice, Quot.sound | `check_characters_partial`, `insert_refused`, `delete_refused`, `forbidden_exact` |
| C39 | none | `stale_namespaces_reloaded`, `getNs_hit` |
| C39 | propext | `table_of_predicate` |
| C39 | propext, Classical.choice, Quot.sound | `sql_store_is_triple_set_partial`, `untyped_literal_changed`, `literal_returned_twice`, `predicate_ignored_for_iris`, `rollback_corrupts_namespaces`, `changed_split_hides_triples` |
| C39 | propext, Quot.sound | `getNs_miss` |
| C40 | propext, Classical.choice, Quot.sound | `root_substitution_lossless_partial`, `literal_with_prefix_raises`, `literal_of_root_becomes_link`, `zero_uid_becomes_root` |
| C41 | propext, Classical.choice, Quot.sound | `session_refines_partial`, `commit_exact`, `load_returns_contents_partial`, `removal_from_reopened_wrapper_lost`, `recreated_object_keeps_old_triples`, `zombie_is_stored` |
| C42 | propext, Classical.choice, Quot.sound | `failed_commit_atomic`, `failed_commit_changes_nothing_partial`, `failed_last_step_loses_changes`, `failure_keeps_or_loses` |
| C43 | propext, Classical.choice, Quot.sound | `reopen_partial`, `history_exact`, `connect_exact` |
| C43 | propext, Quot.sound | `committed_seen` |
| C44 | propext | `tables_after_migration`, `v1Tables_names` |
| C44 | propext, Classical.choice, Quot.sound | `migration_exact_partial`, `migration_stores_labels`, `migration_drops_everything` |
| C44 | propext, Quot.sound | `detect_exact`, `supported_exact`, `procedure_exact`, `migrating_current_database_fails` |
| C45 | propext, Classical.choice, Quot.sound | `uid_iri_roundtrip_partial`, `iriFromUid_injective`, `uidFromIri_ignores_prefix`, `uidFromIri_not_injective` |
| C46 | propext | `history_total`, `all_faithful`, `contains_faithful`, `first_faithful`, `interleaved_iteration_skips` |
| C46 | propext, Quot.sound | `one_faithful`, `next_faithful`, `iteration_faithful`, `iteration_in_order` |
| C47 | propext | `other_text_arbitrary`, `missing_cardinality_raises` |
| C47 | propext, Classical.choice, Quot.sound | `cardinality_exact` |
| C47 | propext, Quot.sound | `quoted_number_arbitrary`, `more_bounds_ignored` |
| C48 | propext, Classical.choice, Quot.sound | `consistency_error_exact`, `conforming_tree_accepted`, `cardinality_error_sound`, `validation_exact`, `validation_exact_partial`, `earlier_violation_missed`, `cyclic_structure_never_validated` |
| C49 | propext, Classical.choice, Quot.sound | `condition_pattern_partial`, `pattern_without_values`, `nested_conditions_collide`, `query_plain`, `remove_plain` |
| C50 | propext, Classical.choice, Quot.sound | `limited_string_roundtrip`, `string_roundtrip_partial`, `text_with_letter_roundtrip`, `numeric_string_changed`, `string_roundtrip_exact`, `string_roundtrip_iff` |
| C51 | propext, Classical.choice, Quot.sound | `neighbor_diff_exact` |
| C52 | propext, Classical.choice, Quot.sound | `vector_rejects`, `vector_iri_roundtrip`, `vector_iri_names`, `vector_without_dimension` |
| C52 | propext, Quot.sound | `vector_roundtrip`, `other_shape_accepted` |
| C53 | propext | `iterate_exact`, `iterate_raises` |
| C53 | propext, Classical.choice, Quot.sound | `exact_match_wins`, `alternative_used`, `unknown_name_raises`, `inverse_of_used`, `inverse_of_alternative`, `camel_to_upper_snake`, `other_to_upper`, `snake_to_camel`, `cuba_old_names`, `lookup_by_label`, `get_by_label`, `full_name_roundtrip_partial`, `empty_name_index_error`, `contains_never_false`, `ambiguous_label`, `label_case_sensitive` |
| C53 | propext, Quot.sound | `members_iff`, `members_nodup` |
| C54 | propext | `from_iri_named_by_suffix`, `urlparse_refused` |
| C54 | propext, Classical.choice, Quot.sound | `namespace_concatenates`, `from_iri_exact`, `two_types_depend_on_order`, `entity_namespace_partial`, `urn_entity_has_other_iri`, `capital_namespace_two_objects`, `shorter_namespace_used`, `schemeChar_exact`, `usesNetloc_exact` |
| C54 | propext, Quot.sound | `bound_namespace_used`, `unbound_split_at_hash`, `unbound_split_at_slash`, `from_iri_named_by_label`, `from_iri_without_label_raises`, `from_iri_order_independent` |
| C55 | propext, Classical.choice, Quot.sound | `validate_iff`, `validate_refuses`, `validate_sound`, `validate_unknown`, `accepts_exactly_ontologies`, `refuses_others`, `accepted_is_ontology`, `entity_formats_exact`, `deep_expression_recursion_error`, `any_namespace_text`, `refused`, `let_through`, `not_let_through`, `isBool_exact`, `text_exact` |
| C56 | propext, Classical.choice, Quot.sound | `convert_path_exact`, `convert_path_back` |
| C57 | propext, Classical.choice, Quot.sound | `changes_applied_before_run_partial`, `first_run_drops_changes`, `failed_first_run_drops_updates`, `consume_no_root` |
| C58 | propext, Classical.choice, Quot.sound | `server_receives`, `agree_received`, `call_agrees`, `failed_call_agrees`, `read_refreshes`, `synced0`, `lost_request_loses_changes`, `lost_response_keeps_changes`, `deleted_without_triples_fails`, `user_context_change_not_sent`, `recreated_object_gets_old_type`, `changed_and_expired_not_expired`, `load_without_root`, `request_lost`, `read_fresh` |
| C59 | propext, Classical.choice, Quot.sound | `files_confined`, `files_confined_always`, `receiveFilesSt_ok`, `files_halfway`, `cut_example` |
| C60 | propext, Classical.choice, Quot.sound | `delete_recursively_exact` |
| C60 | propext, Quot.sound | `delete_stops` |
| C61 | none | `default_order_dependent`, `falsy_default_lost`, `restriction_always_obligatory` |
| C61 | propext | `default_does_not_lift_obligation`, `restriction_obligatory_iff` |
| C61 | propext, Classical.choice, Quot.sound | `attributes_inherited` |
| C62 | propext, Classical.choice, Quot.sound | `moved_files_confined`, `moved_files_exact`, `moveOne_refused` |
| C63 | propext, Classical.choice, Quot.sound | `file_transfer_exact_partial`, `changed_file_not_resent` |
| C64 | propext, Classical.choice, Quot.sound | `received_file_sent_back_partial`, `any_file_sent`, `arbitrary_file_sent` |
| C65 | propext, Quot.sound | `root_is_first`, `root_of_new_session`, `deleted_root_stays` |
| C66 | propext | `zero_length_no_limit` |
| C66 | propext, Classical.choice, Quot.sound | `datatype_roundtrip`, `datatype_accepted`, `meaning_unique`, `datatype_iri_injective`, `max_length_enforced`, `leading_zeros`, `meaning_example`, `basic_iris` |
| C67 | propext | `splitName_refused` |
| C67 | propext, Classical.choice, Quot.sound | `parse_exact`, `parse_keeps`, `document_exact`, `mem_declared`, `accepted_proper`, `accepted_viewed`, `ready_of_hash`, `parsed_says`, `proper`, `ready`, `truth_exact` |
| C68 | propext, Classical.choice, Quot.sound | `parse_succeeds_iff`, `document_parsed_iff`, `parse_outcome_partial`, `cyclic_never_ends`, `never_ends`, `fine`, `other_spelling`, `false_counts`, `default_elsewhere`, `refused_later`, `defaultRel_refused` |
| C69 | propext, Classical.choice, Quot.sound | `order_irrelevant`, `reordered` |
| C70 | propext, Classical.choice, Quot.sound | `export_exact`, `import_exact`, `roundtrip_answers`, `others_unchanged`, `reimport_unchanged`, `transfer_complete`, `import_refused_iff` |
| C70 | propext, Quot.sound | `complete_import`, `dangling_after_import`, `imported_object_not_deletable`, `old_export_breaks_symmetry`, `second_class_after_import`, `empty_list_raises`, `import_stops_at_error`, `fix_neighbors_depends_on_order` |
| C71 | propext, Classical.choice, Quot.sound | `rdf_exact`, `rdf_refused`, `rdf_parsed_iff`, `rdf_invalid_unchanged`, `bind_exact`, `free_name_unique`, `names_keep_iri`, `name_unique`, `package_names`, `second_package_renamed`, `name_stolen_by_own_package`, `refused_package_loaded`, `text_active_refused`, `rdf_invalid_error`, `active_refused`, `namespaces_refused` |
| C71 | propext, Quot.sound | `registry_get` |
| C72 | propext, Classical.choice, Quot.sound | `restart_names_partial`, `restart_resolve`, `tab_breaks_loading`, `restart_changes_namespace`, `restart_changes_case_clash` |
| C72 | propext, Quot.sound | `restart_registry` |
| C73 | propext, Classical.choice, Quot.sound | `find_by_uid`, `find_by_oclass`, `find_by_attribute`, `find_by_relationship`, `registry_filters` |
| C73 | propext, Quot.sound | `search_and_filter_differ` |
| C74 | propext, Classical.choice, Quot.sound | `relationships_between_inverse`, `remove_cuds_object`, `remove_then_prune` |
| C74 | propext, Quot.sound | `relationships_between` |
| C75 | propext, Classical.choice, Quot.sound | `pretty_print_exact`, `pretty_print_text`, `pretty_print_sorted`, `pretty_print_fails`, `prints`, `unnamed_object_breaks_printing` |
| C76 | propext, Classical.choice, Quot.sound | `dot_exact`, `dot_faithful`, `same_short_name`, `short_names_merge` |
| C77 | propext, Classical.choice, Quot.sound | `convert_spec`, `names_taken`, `toCamelCase_spec`, `references_match`, `asked_once`, `cuba_itself_inconsistent`, `default_rel_not_renamed`, `description_taken_for_entity`, `convert_refused`, `cuba_words`, `convert_bad_requirements` |
| C78 | propext, Classical.choice, Quot.sound | `converts_partial`, `entities_kept_partial`, `definitions_kept_partial`, `newName_injective`, `example_converts`, `definition_lost`, `cycle_not_converted` |
| C78 | propext, Quot.sound | `camel_injective` |
| C79 | propext | `change_oclass_coherent_iff` |
| C79 | propext, Classical.choice, Quot.sound | `change_oclass_exact`, `change_oclass_unconvertible`, `move_to_city` |
| C79 | propext, Quot.sound | `change_oclass_refused`, `moved_person_forgets_friends`, `change_oclass_then_delete_dangles`, `refused_change_two_classes`, `retype_missing` |
| C80 | propext, Classical.choice, Quot.sound | `recycle_fixing_partial`, `recycle_keeping`, `recycle_new` |
| C80 | propext, Quot.sound | `recycle_fixing_fails`, `unlink_succeeds`, `unlink_fails`, `unrelated_left`, `recycle_new_fails`, `recycle_depends_on_order`, `recycle_self_link_fails`, `recycle_new_bad_value`, `recycle_new_zero` |
| C81 | propext, Classical.choice, Quot.sound | `credentials_removed`, `address_unchanged`, `connection_independent`, `auth_reaches_session`, `at_sign_in_password`, `wrong_host`, `password_not_decoded`, `empty_credentials_kept` |
| C82 | propext, Classical.choice, Quot.sound | `initialised_once`, `handshake_first`, `root_not_pending`, `pending_since`, `transfer_sends_pending`, `forwarded_is_executed`, `other_names_not_sent`, `failed_init_is_stuck`, `stuck_forever`, `wrong_password` |
| C83 | propext, Classical.choice, Quot.sound | `draw_exact`, `draw_inverses`, `coloured_in_labelled` |
| C83 | propext, Quot.sound | `drawing`, `automatic_inverse_depends_on_order` |
| C84 | propext | `getPerson_exact` |
| C84 | propext, Classical.choice, Quot.sound | `simulation_exact`, `person_ages_and_moves`, `changed_simulation_refused`, `changed_simulation_stuck`, `ex_scene`, `ex_simulation`, `ex_steps_fixed`, `ex_no_city`, `ex_friends`, `nameless_key`, `run_refused` |
| C84 | propext, Quot.sound | `loadCity_missing`, `loadWrapper_missing`, `refreshAll_error`, `applyLoop_error` |
| C85 | propext | `fetch_error` |
| C85 | propext, Classical.choice, Quot.sound | `commit_exact`, `load_exact`, `loadAll_exact`, `connect_exact`, `byOclass_exact`, `byOclasses_exact`, `history_exact`, `b1_ok`, `b2_ok`, `evs_ok`, `ex_third_session`, `stale_type_kept`, `added_is_merged`, `literal_iris`, `clash_confuses` |
| C85 | propext, Quot.sound | `committed_seen`, `loadByOclasses_stops` |
| C86 | propext, Classical.choice, Quot.sound | `export_exact`, `export_args`, `customTriples_exact`, `names_inCuba`, `inCuba_iri`, `skip_keeps_objects`, `import_exact`, `import_export`, `import_not_loaded`, `full_exact`, `connect_fresh`, `database_exact`, `history_export`, `ex_export`, `ex_onto_only`, `ex_full`, `ex_database`, `import_loses`, `import_text`, `dangling_raises` |
| C86 | propext, Quot.sound | `again` |
| C87 | propext | `ex_get`, `ex_set`, `ex_items`, `ex_eq`, `refused_assignment_loses`, `entry_retypes`, `bool_stale`, `absent_keys`, `order_matters` |
| C87 | propext, Classical.choice, Quot.sound | `target_eq_exact`, `rel_eq_exact`, `add_direct_exact` |
| C87 | propext, Quot.sound | `target_get_exact`, `target_set_exact`, `target_set_get`, `target_del_exact`, `update_exact`, `target_iter_exact`, `target_items_exact`, `rel_set_exact`, `rel_set_keys`, `rel_set_refused`, `rel_del_exact`, `rel_iter_exact`, `rel_bool_exact`, `rel_bool_keys`, `remove_direct_exact`, `ex_add` |
| C88 | propext | `cuds_eq_iff`, `cuds_eq_same_graph`, `eq_kinds`, `entity_eq_iff`, `ns_eq_iff`, `ns_eq_other`, `default_rel_exact`, `default_rel_raises_once`, `ex_eq`, `equal_with_other_content`, `equality_depends_on_order` |
| C88 | propext, Classical.choice, Quot.sound | `cuds_eq_sessions`, `eq_hash`, `hash_stable`, `in_set_iff`, `get_subtree_objects`, `lost_in_set`, `ex_collision`, `entities_confused`, `namespace_comparison_asymmetric`, `ex_default_rel`, `ex_subtree` |
| C88 | propext, Quot.sound | `eq_equivalence` |
| C89 | propext, Classical.choice, Quot.sound | `where_means`, `where_none`, `join_used_alias`, `select_statement`, `select_rows`, `insert_statement`, `update_statement`, `delete_statement`, `select_types`, `select_rels`, `select_data`, `query_plain`, `remove_plain`, `delete_types`, `delete_rels`, `delete_data`, `delete_all`, `lookup_cuds`, `lookup_entity`, `lookup_namespaces`, `insert_row`, `insert_data`, `insert_type`, `insert_rel`, `insert_cuds`, `insert_entity`, `insert_namespace`, `exEncodes`, `insert_refused`, `delete_refused`, `untyped_condition`, `wrong_object` |
| C90 | propext, Classical.choice, Quot.sound | `convert_typed`, `convert_kept`, `convert_idem`, `convert_basic_and_back`, `text_read`, `bool_text`, `int_text`, `int_float`, `uuid_int`, `uuid_bytes`, `string_limit`, `none_value`, `new_uid`, `set_stores`, `set_refused`, `set_refused_iff`, `set_get`, `set_what_was_read`, `new_object`, `new_object_iff`, `export_same_partial`, `export_uuid`, `sqlite_bool`, `sqlite_int`, `sqlite_float`, `sqlite_limited`, `sqlite_text`, `sqlite_uuid`, `default_same`, `default_differs`, `bool_of_int`, `bool_of_text`, `float_of_large` |
| C90 | propext, Quot.sound | `get_missing` |
| C91 | propext, Classical.choice, Quot.sound | `init_ok_iff`, `init_tables_partial`, `init_indexes`, `init_again`, `init_refused`, `yaml_supported`, `shapeless_vector_fails`, `foreign_keys`, `clear_order`, `clearLocal_exact`, `clear_exact`, `clear_rolls_back`, `failed_clear_empties_session`, `data_statements`, `wide_vector_fails`, `example_ok`, `example_vector`, `example_clear`, `text_cuds`, `text_boolean`, `text_index`, `untyped_column`, `custom_exact` |
| C92 | propext, Classical.choice, Quot.sound | `remote_refines_partial`, `remote_commit_stores_partial`, `remote_like_local_partial`, `step_good`, `connect_good`, `wrapper_gets_both_values`, `lost_commit`, `reload_revives`, `along3`, `along4`, `local4`, `unreadable`, `query_refines_partial`, `query_adds_partial`, `query_discards_changes`, `query_discards_failed_commit`, `query_revives`, `query_like_local_partial`, `loads_revives`, `loadMany_one`, `qstep_good`, `along5`, `along6`, `local6`, `query_error`, `query_unopened` |
| C93 | propext, Classical.choice, Quot.sound | `yaml_attributes_exact`, `yaml_call_exact`, `own_exact`, `own_doc`, `own_old`, `superclasses`, `unseen`, `tidy`, `not_nothing`, `town_attributes`, `default_no_help`, `order_decides`, `zero_loses`, `dangling_raises`, `all_values_demanded`, `terms_standard`, `truthy_exact`, `restriction_datatype_exact` |
| C94 | propext, Classical.choice, Quot.sound | `pico_history`, `pico_sound`, `pico_install_exact`, `pico_overwrite_exact`, `pico_uninstall_exact`, `pico_uninstall_all`, `pico_list_exact`, `pico_never_raises`, `pathFree`, `reloads`, `history`, `computed`, `list_printed`, `refused_reported`, `package_named_all`, `unfit_loses` |
| C95 | propext, Classical.choice, Quot.sound | `migration_keeps_partial`, `migrated_once`, `no_migration`, `failed_migration_loses`, `incomplete_lost`, `requirement_outside_lost`, `rename_fails_loses`, `killed_while_moving`, `old_old`, `complete_old`, `parsable_old`, `computed`, `cuba_required_lost`, `second_rename_fails`, `first_rename_fails`, `nothing_installed` |
| C96 | propext, Classical.choice, Quot.sound | `access_agrees`, `any_spelling`, `iter_exact`, `own_attribute_hides`, `same_prefix_shadowed`, `namespace_called_load`, `empty_prefix` |
| C96 | propext, Quot.sound | `found_iff` |
| C97 | propext, Classical.choice, Quot.sound | `last_commit_wins`, `uncommitted_invisible`, `no_dirty_reads_partial`, `expired_shows_latest`, `all_expired`, `lost_update`, `stale_read`, `dirty_after_late_failure` |
| C98 | propext | `fileCuds_order` |
| C98 | propext, Classical.choice, Quot.sound | `fileCuds_exact`, `server_files`, `client_files`, `deleted_ignored`, `hashDir_exact`, `known_file`, `ex_sent`, `ex_hyps`, `ex_server`, `ex_refused`, `ex_hashDir` |
| C98 | propext, Quot.sound | `hash_whole` |
| C99 | propext, Classical.choice, Quot.sound | `clients_refine_partial`, `stored_until_written_partial`, `last_commit_wins_partial`, `expired_read_latest_partial`, `along2`, `case2`, `lost_update`, `reload_merges`, `deletion_undone` |
| C100 | propext, Classical.choice, Quot.sound | `interleaving_is_sequential`, `order_respects_time`, `client_requests_in_order`, `client_gets_its_answers`, `step_same`, `never_dropped`, `always_served`, `client_served_in_full`, `private_undisturbed`, `mixed_served`, `torn_file`, `desk_fits`, `desk_private` |
| C101 | propext, Classical.choice, Quot.sound | `get_value`, `get_missing`, `get_sources`, `set_value`, `set_refused`, `set_get`, `new_iff`, `no_class`, `refresh_fails`, `private_set`, `del_keeps`, `members_kept`, `last_write`, `untouched`, `new_get`, `parameters_taken`, `history_example`, `wrapper_example`, `odd_example`, `low_unreachable`, `refresh_example` |
| C101 | propext, Quot.sound | `both_spellings`, `shadowed` |
| C102 | propext, Classical.choice, Quot.sound | `read_marks`, `links_agree_partial`, `changed_database_links_agree_partial`, `reached`, `premises`, `loaded_is`, `refresh_example`, `deleted_example`, `new_object_half_link`, `mixed_load_half_link`, `wrapper_half_link`, `come_and_go_half_link` |
| C103 | propext | `exOnto_wf` |
| C103 | propext, Classical.choice, Quot.sound | `build`, `build_iff`, `tree` |
| C103 | propext, Quot.sound | `town_premises`, `town_built`, `twice`, `missing` |
| C104 | propext, Classical.choice, Quot.sound | `turn`, `in_order`, `uninterrupted`, `changes_survive_partial`, `marks_taken`, `ex_turn`, `ex_given`, `exChange_careful`, `removed_meanwhile`, `stale_read`, `given_up`, `lost_change`, `deleted_comes_back` |
| C105 | propext | `vanished` |
| C105 | propext, Classical.choice, Quot.sound | `in_place_partial`, `original_survives_partial`, `in_place_succeeds`, `elsewhere`, `tool_in_place`, `search_first`, `search_ends`, `faithful0`, `atMost0`, `alias_loses_original`, `kinds_lose_original`, `other_output_lost` |
| C105 | propext, Quot.sound | `interrupted_exact` |
| C106 | propext, Classical.choice, Quot.sound | `failed_look`, `failed_load`, `repeated_load_partial`, `repeated_load_keeps_old`, `second_read_shows_old`, `repeated_change_of_old`, `refresh_recovers`, `failed_open`, `exHist_root`, `exHist_expired`, `exHist_done`, `load_shows_old`, `read_shows_old`, `change_of_old`, `undone_after_failure`, `refresh_helps`, `open_fails_silently` |
| C106 | propext, Quot.sound | `exHist_proper` |
| C107 | propext, Classical.choice, Quot.sound | `down_atomic_partial`, `down_skipped`, `down_commit_stores_partial`, `down_offline`, `down_refused_partial`, `dstep_good`, `along`, `along_begun`, `begun_state`, `refused_in_hist`, `pending_is_read`, `made_up_for`, `outage_forgets` |
| C108 | propext | `copy_closed`, `copy_eq_iff` |
| C108 | propext, Classical.choice, Quot.sound | `copy_shows`, `createFrom_copy`, `storeCopy_eq`, `copy_added_partial`, `copy_restores_partial`, `copy_undo_partial`, `copy_with_content`, `undo_example`, `copy_to_session_partial`, `carried` |
| C108 | propext, Quot.sound | `copy_again`, `copy_set`, `content_overwritten`, `content_dangles`, `copy_example`, `set_example`, `copy_holds`, `copy_add_refused`, `copy_update_refused`, `put_back` |
| C109 | propext | `left_untouched` |
| C109 | propext, Classical.choice, Quot.sound | `planned_whole`, `install_writes`, `install_killed_partial`, `install_killed_adds`, `refused_writes_nothing`, `clear_killed_loses`, `install_skips`, `killed_then_skipped`, `turtle_steps`, `city_stays`, `torn`, `turtle_succeeds`, `turtle_skipped`, `uninstall_killed`, `refused_example`, `complete_between`, `tidy_complete`, `turtle_complete`, `graph_torn`, `command_sound`, `turtle_torn`, `killed_good`, `killed_repaired_partial`, `turtle_repaired`, `uninstall_killed_removes`, `overwrite_killed_adds`, `test_removed`, `city_overwritten`, `uninstall_killed_keeps`, `overwrite_killed_keeps`, `city_left`, `turtle_left`, `uninstall_not_repeated`, `uninstall_lost`, `overwrite_lost`, `test_lost`, `city_lost` |

## Per property

`proved`: the English statement in full. `partial`: the part that is true of the code or the part proved so far; the note in MANIFEST.json says what is missing, and a witness theorem shows where the full statement is false of the code.

| id | property | modelled in | how it is proved | status |
|---|---|---|---|---|
| C01 | Message headers survive the wire | Wire | round trip equations for encode_header/decode_header; exact rejection | proved |
| C02 | Payload blocking is lossless | Wire | induction on the message; any block size | proved |
| C03 | File transfer reproduces the sent files | Wire | induction on the list of files, any interleaving of blocks | proved |
| C04 | Requests and responses are delivered as sent | Wire | composition of C01–C03; sequences of requests by induction; witness for a vanished file | proved |
| C05 | A file already known to the receiver is not sent twice and never skipped wrongly | Wire | invariant InSync over the list of files and over sequences of transfers | proved |
| C06 | JSON value transport round trip | Transport | structural induction on values (nested lists and dictionaries) | proved |
| C07 | Only exported session methods can be called remotely | Server | case analysis; the log of called methods along all histories | proved |
| C08 | Connections are isolated | Server | projection of a history on one connection, by induction | proved |
| C09 | A failing request does not take the server down or leak a session | Server | life cycle invariant Orderly by induction over histories | partial |
| C10 | Change buffers classify every object at most once | Sess | invariant over all safe histories | partial |
| C11 | Buffers describe the net change | Sess | simulation of the net change, by induction over histories | partial |
| C12 | Pending user changes are never overwritten by a refresh | Sess | invariant; exact effect of expire | partial |
| C13 | Backend loading does not count as user changes | Sess | frame lemmas for the engine context | proved |
| C14 | Commit, run and save consume the pending changes | Sess | Consume: arbitrary backend programs | partial |
| C15 | A session has at most one wrapper and it is the root | Sess | invariant over creations and loads | partial |
| C16 | Relationships are symmetric with their inverses | Cuds | invariant Refines between the graph and an abstract link relation, over all histories | proved |
| C17 | add connects exactly the given objects, or raises | Cuds | exact graph equation; atomicity of the checks | proved |
| C18 | remove deletes exactly the matching links in both directions | Cuds | exact graph equation | proved |
| C19 | get answers are exact | Cuds | exact characterisation for all forms of arguments, order and duplicates included | proved |
| C20 | Attributes are single valued, last write wins | Cuds | exact graph equation; invariant single valued | proved |
| C21 | Deleting an object removes it and every link to and from it | Cuds | exact graph equation | proved |
| C22 | Prune keeps exactly what the root reaches | Search | DFS visits exactly the inductive reachability relation; fuel proved sufficient | proved |
| C23 | Subtree queries terminate and return exactly the reachable objects | Search | the same | proved |
| C24 | Adding an object from another session copies its reachable subtree | Store | refinement: abstract copy of a graph; loop invariant for _recursive_store | proved |
| C25 | Re-importing an object does not lose its old parents | Store | invariant of the copying loop with two bounds for the parents restored: all, if one dropped parent has enough kinds of relationships; never more than the kinds each of them has | partial |
| C26 | Search returns exactly the reachable matching objects | Search | DFS invariant with an arbitrary criterion | proved |
| C27 | Depth limited search is complete | Search | level function; witness of incompleteness | partial |
| C28 | superclasses/subclasses are the reflexive transitive closure | Onto | worklist invariant: result = reflexive transitive closure | proved |
| C29 | Subclass and superclass tests agree and form a preorder | Onto | closure laws; duality outside top and bottom | partial |
| C30 | inverse is an involution and stable | Onto | invariant over histories of inverse queries | proved |
| C31 | Lazily created inverses respect the hierarchy | Onto | the same invariant | proved |
| C32 | Attribute datatype is unique or an error | Onto | exact characterisation of the result and the error | proved |
| C33 | Constructor arguments are resolved exactly | Onto | induction over the attributes of the class | proved |
| C34 | Installation order respects requirements | Install | sorting = topological order; pipeline invariant over request histories | proved |
| C35 | Uninstall keeps exactly the other packages, or changes nothing | Install | exact characterisation of success, refusal and of the directory | partial |
| C36 | Vector columns round trip | Sql | induction over columns: expand then contract | partial |
| C37 | Data table names identify the datatype | Sql | injectivity of table names by text lemmas | partial |
| C38 | SQL identifiers with forbidden characters are rejected | Sql | work list loop, termination weight, exact condition | partial |
| C39 | The SQL triple tables implement a set of triples | Tables | refinement: tables represent a set of triples; invariant over histories | partial |
| C40 | Root substitution is lossless | Iri | text substitution lemmas | partial |
| C41 | Committing makes the database equal to the session | Sess | refinement database = session over safe histories | partial |
| C42 | Commit is atomic and retryable | Sess | all failure points of a commit | partial |
| C43 | Reloading after commit gives back the committed objects | Sess | second session of the same database | partial |
| C44 | Schema version detection and migration decisions are sound | Tables | exact detection; simulation between dictionaries of the migration and the tables | partial |
| C45 | uid and IRI conversion are inverse | Iri | round trip of 128 bit numbers; witnesses of accepted IRIs | partial |
| C46 | QueryResult is a faithful, cached view | Query | invariant over all histories of calls and generators | proved |
| C47 | Cardinality strings are interpreted as documented | Schema | all documented forms, all counts | proved |
| C48 | Schema validation accepts exactly the conforming trees | Schema | grouping traversal invariant; exact errors | partial |
| C49 | SQL conditions never mix user data into the statement | Sql | conditions as trees; parametricity in the values; distinct parameter names | partial |
| C50 | Stored strings come back unchanged from sqlite | Sql | affinity and literal scanner; witness "5" | partial |
| C51 | Neighbor diff is exact | Store | exact set equality | proved |
| C52 | Vector attribute values round trip through their literal form | Sql | reshape/flatten by induction on the shape | proved |
| C53 | Entity lookup by name is deterministic and case tolerant | Names | exact characterisation; camel case ↔ snake case words | proved |
| C54 | Namespace resolution of an IRI is consistent | Names | exact condition | partial |
| C55 | YAML format validation accepts exactly the documents of the schema | Yaml | soundness and completeness against an inductive specification, for every table | proved |
| C56 | Path conversion follows the server's path style | Transport | exact characterisation | proved |
| C57 | Simulation sessions apply changes before each run | Sess | Consume, simulation sessions | partial |
| C58 | Client and server sessions agree after synchronisation | Sync | refinement of both sessions; all network failures | proved |
| C59 | Receiving files is confined to the target directory | Wire | invariant over receive_files | proved |
| C60 | Recursive deletion removes exactly the reachable objects | Search | DFS then deletion; frame of the others | proved |
| C61 | Attributes are inherited from all superclasses | Onto | fold over the superclasses | proved |
| C62 | Attached files are stored under their object's uid and nowhere else | Transport | frame lemma of the file system | proved |
| C63 | Files reach the server unchanged | Transport | composition of move, send, receive, move | partial |
| C64 | The server only sends files from its file directory | Transport | case analysis; witness | partial |
| C65 | The session root is the first object | Cuds | invariant over histories | proved |
| C66 | Datatypes of YAML ontologies keep their meaning | Yaml | text lemmas; classification of all accepted texts | proved |
| C67 | Installing a YAML ontology adds exactly what the document says | Ymlp | three loops of the parser: exact triples by invariants | proved |
| C68 | A YAML ontology is parsed exactly if it is well formed | Ymlp | exact condition for success; non-termination on cycles | partial |
| C69 | The order of the entities in a YAML ontology does not matter | Ymlp | permutation invariance of the exact description | proved |
| C70 | Export and import of objects is lossless | Export | exact effect of each import step, induction over the documents, answers of the API from equality of triples | proved |
| C71 | Installing an RDF ontology adds exactly the file and what its package file says | Rdfp | exact effect of each step; invariant of the namespace dictionaries over all histories of bind | proved |
| C72 | The installed namespaces survive a restart | Rdfp | text round trip of the table, invariant of bind, independence of the order | partial |
| C73 | Searches by uid, class, attribute and relationship are exact | Utils | instances of the DFS theorem of C26; criteria related to triples | proved |
| C74 | Taking an object out of the structure removes exactly its links | Utils | induction over the neighbours with remove_exact; prune_exact | proved |
| C75 | Pretty printing shows the whole active structure once | Show | traversal related to the DFS of C26; edges as a permutation of the links; invariant for the marks | proved |
| C76 | The drawing of a structure is faithful | Show | the same traversal; digits of the uid | proved |
| C77 | Converting an old ontology renames every entity consistently | Camel | refinement of the stateful recursion to a pure renaming, induction on the document; induction on the recursion depth for the first letter, relative to every total answer function that agrees with the record | proved |
| C78 | Converting an old ontology loses no entity and ends | Camel | left inverse of the spelling (names back to upper case with underscores); induction on the document and on the chain of superclasses | partial |
| C79 | Changing the class of an object | Recycle | refinement to the view of a session: members of the graph after each loop; coherence characterised by an equivalence | proved |
| C80 | Recycling an object | Recycle | induction on the relationships, with the links cut so far as invariant; exact condition for success by cases on the first relationship without a link | partial |
| C81 | Credentials in the URI authenticate the user and go nowhere else | Connect | exact evaluation of the URI parser on the text of an arbitrary valid address; case analysis of the construction of the session at the server | proved |
| C82 | A client session is initialised exactly once and loses no object | Connect | induction on the history: log of requests, root and pending objects; the stuck state is an invariant | proved |
| C83 | The drawing of an ontology is complete and has no doubles | Draw | depth-first search: exact growth of nodes and edges by induction on the depth; the inverse edges are determined by the order of the nodes | proved |
| C84 | The dummy simulation ages everyone and moves one person in each step | Sim | refinement: an invariant between the session and the progress of the simulation, kept by every run and load; the move by the theorem about change_oclass, stable insertion sort for the order | proved |
| C85 | What a session commits to the SQL database is what later sessions load | Persist | refinement: the tables of Verif.Tables keep a set of facts about the wrapper and the objects; every loop of commit and load by induction over its list, histories by induction | proved |
| C86 | The exported RDF graph is complete and can be imported again | Full | the traversal as a depth-first search over the state of session and database: invariant that every registered object has exactly its triples, measure = objects not visited, closure of the visited set under relationships gives completeness | proved |
| C87 | The dictionaries of neighbours behave like dictionaries over the graph | Neighbor | each operation as a function of graph, pending refresh and notifications; exact membership after each, induction over the assigned dict, dict equality as equality of items (pigeonhole) | proved |
| C88 | Equality and hashing of objects, entities and namespaces are consistent | Equal | handles with identity, graph and uid in a world of graphs, arbitrary hash functions; case analysis for ==; simulation between get_subtree on Python sets of objects and on uids by induction over the fuel and the children | proved |
| C89 | SQL statements of the triple store mean what the pattern says | Stmt | conditions, queries and statements with an arbitrary order of sets; relational semantics of SELECT, DELETE, INSERT; joins as nested loops, permutation of the loops; induction over conditions for the expansion of vectors | proved |
| C90 | Attributes hold values of their declared datatype | Value | Python values of all kinds, abstract floating point numbers with parse(repr(f)) = f, rdflib literals, sqlite cells; case analysis over datatypes and values, induction over hexadecimal digits for the 128 bits | partial |
| C91 | Opening an SQL session creates the tables it needs, clearing empties them | Setup | declarations of tables, the database as list of tables and indexes, SQL texts; induction over the list of declarations, refinement of the session state by C18 for clearing | partial |
| C92 | A database session used through a client behaves like the session itself | Remote | client session, server session and database as one state; an invariant relating both sessions, the pending changes of both and the expectation of the user, preserved by every operation; refinement of a map with commits | partial |
| C93 | Classes have the attributes that the YAML ontology lists for them and their superclasses | Fields | attributes read from the parsed graph; composition of the exact graph of C67, the exact superclasses of C59 and the exact merge of C61; graph before and graph after compared statement by statement | proved |
| C94 | Every sequence of pico commands leaves a consistent installation | Pico | each command as restart from the directory followed by the operation of Install; the invariant Sound (saved graph = parse of the installed documents in a requirement order) is preserved by every successful command, failed commands keep the directory | proved |
| C95 | Migrating an old installation keeps every ontology | Migrate | the moving loop and the call of the installer on an empty directory with the moved files overlaid on the file system; success and exactness by the theorems of Install (install_with_order_succeeds, install_exact) and Pico (sound_install') | partial |
| C96 | Namespaces are found by name in every spelling | Names | the dictionary of namespaces as a list in which the latest entry counts; the accessors by unfolding to one lookup, the lookup by the last binding, the iteration by the keys without doubles | proved |
| C97 | Sessions that share a database overwrite each other only object by object | Multi | the sessions of Sess with a shared database; an invariant saying that every content shown for an unchanged object was stored at some moment of the history, preserved by every call (loads are described without assumptions on the pending changes); the last writer by induction on the history | partial |
| C98 | A message carries exactly the files of its objects, each at most once | Files | structural recursion over nested arguments with a separate inductive specification of lying in a value; the moves of a message as one sequence of moves, with the invariant that a reported file was not in place before and is in place afterwards; the reading loop by strong induction on the remaining bytes | proved |
| C99 | Several clients in front of one database | Clients | refinement by an invariant of each client and its session on the server that says nothing about the relation to the database, so that it survives any change by others (except that the wrapper stays stored); the effect of every call in terms of what the client shows, what is stored and which objects it changed; then induction on the interleaved history | partial |
| C100 | Connections side by side | Frames | every await of the coroutine is a state of an automaton that is fed frame by frame; one frame more fed is one frame more decoded by the list-based decoder of C01-C05 (feed_cont); an invariant relates the interleaved server to a sequential one that follows the order in which the backend was called; progress by induction on what has arrived and on what is still to be sent | proved |
| C101 | Attributes by name | Access | the lookup of Python, __getattr__ and __setattr__ as functions of the object and of an arbitrary session; the name resolved by find?, shown to be the first attribute it spells; histories by induction with the invariant that Python attributes have an underscore; the constructor by composing C33 and C90 | proved |
| C102 | Links stay mutual when another session changes the database | Links | the differences of get_neighbor_diff made precise in the model of C97 (which leaves them open); one call reloads some objects and marks their changed neighbours; by induction over the history, an object still showing the old state and not expired has the same links from everyone as at the start | partial |
| C103 | Nested calls of branch build exactly the tree they show | Branch | expressions as a mutual inductive type evaluated as Python does; each stage leaves a view that is Built from the one before; mutual induction with lemmas that compose two stages; trees by disjointness of the objects of subexpressions | proved |
| C104 | An iteration that is interrupted by other calls | Lazy | generators with their local variables on top of the model of sessions; invariant over all histories of events: where each iteration stands; one step by cases of one round of load (C97); for the changes, the invariant that nothing that waits to be reloaded has pending changes | partial |
| C105 | Converting an ontology file in place keeps the original | Backup | file operations as a list of which any initial part may be executed; the loop over names by induction with the pigeonhole principle for its end; what a conversion in place leaves behind as a structure that composes over histories | partial |
| C106 | The database fails in the middle of a call | Outage | the session of C12/C97 with a backend that answers n requests of a call and then raises; the loop of load split at the request that fails; invariant of sessions over all histories of calls with and without failures | partial |
| C107 | A database that is down is seen through a client as refused calls that leave no trace | Down | the client, server and database of C92 with calls during which every request to the database raises (C106); each call is compared with the same call while the database works, the invariant of C92 carries over | partial |
| C108 | A copy of an object (copy.deepcopy, pickle) is a snapshot, and adding it back restores the object | Copy | the copy is a uid with a graph of its own, made by the model of get_triples; storing a copy is compared with storing the object itself from the session it was copied from (C24), so the specification Imported of C24 carries over | partial |
| C109 | A pico command that is killed loses no installed package, and repeating it completes it | Killed | the writes of _install as a list of operations on the directory; what is left after a kill is a prefix of them and possibly one file with arbitrary content; all of them together are proved equal to the model of the whole command | partial |

## Simplifications that matter

* uids, classes, relationships, attributes and values are numbers where only their identity is used. uid 0 is the invalid
  uid (`uuid.UUID(int=0)`), where the code treats it so.
* Case conversion and white space are those of ASCII (Iri, Text, Names, Yaml, Sql).
* Python's recursion limit is a parameter of the validator (C55) and of the schema check (C48); elsewhere recursion is
  assumed not to reach it.
* Cuds: subjects are CUDS objects; attribute values are compared after conversion; `Onto.WF` (inverse is an involution,
  every relationship is below `cuba:relationship`) is a hypothesis with a witness that it is needed.
* Store: attribute values survive reading and writing; the dictionary `missing` is flattened.
* Sess/Consume: a backend is an arbitrary program that sees the log of its own calls.
* Sync: the network may lose a request, lose a response or deliver both; it does not duplicate or reorder.
* Tables: the generated key is the largest key plus one, as sqlite does for INTEGER PRIMARY KEY; values are compared by equality.
* Names: `inverse` is a parameter (it is modelled in Onto).
* Install: identifiers without dots; an RDF file is readable only in its own format.
* Yaml: floats are represented by their `repr`; `\\d` is an arbitrary class of characters that contains the digits.
* Ymlp: the namespace registry is an oracle; namespaces are plain and `#`-separated (`Ready`).
* Schema: the result of `get(rel, oclass)` is a number that may be an exception.

## Findings

Deviations of the code from what its users expect, each a theorem (names without namespace):

* Transport: `missing_file_desyncs_connection` (a file that disappears desynchronises the connection), `changed_file_not_resent`,
  `any_file_sent` (a client can ask for any path of the server), reserved dictionary shapes change meaning (C06).
* Server: a failing re-initialisation, an `_init` without hashes and a raising `close` leak sessions (C09).
* Sessions: `reused_uid_in_two_buffers`, `first_run_drops_changes`, buffers lost iff the final commit of the backend fails (C42),
  a query by class overwrites pending changes (C12), two wrappers without class triples (C15).
* CUDS API: `create_existing_uid_corrupts`, `delete_dangling_without_top`, `prune_filter_leaves_dangling_links`, `deleted_root_stays`.
* Copies between sessions: `old_parent_lost` (zip truncation in `_fix_old_neighbors`), one-way links of copied objects, leftover types.
* Export: `dangling_after_import`, `imported_object_not_deletable`, `old_export_breaks_symmetry`, `second_class_after_import`,
  `fix_neighbors_depends_on_order` (the outcome of create_from_triples depends on the order of a Python set).
* Search: `find_depth_incomplete` (depth limited search misses objects).
* Ontology: `dual_fails_at_top`; relationships with several inverses; defaults depend on order; falsy defaults are ignored.
* Installation: KeyError when an installed package is named twice; failing overwrite loses packages;
  `refused_uninstall_empties_registry`; RDF packages with requirements or capital letters cannot be installed.
* YAML: `deep_expression_recursion_error`; `cyclic_never_ends`; `other_spelling`, `false_counts`; VECTOR alone gives IndexError.
* SQL: `quote_not_rejected` (only the first forbidden character is checked), `nested_conditions_collide`,
  `numeric_string_changed` ("5" comes back as "5.0"), `table_clash`, `literal_returned_twice`, `migration_stores_labels`,
  `migration_drops_everything`.
* Schema validation: `earlier_violation_missed` (only the last object of a class is checked).
* Names: `urn_entity_has_other_iri`; ambiguous labels; `in` never gives False.
* RDF packages: `second_package_renamed` (a second namespace of the same name silently becomes `name1`), `refused_package_loaded`, `text_active_refused`,
  `tab_breaks_loading`, `restart_changes_namespace` (namespaces that are prefixes of each other change with a restart).
* Utils: `search_and_filter_differ` (the registry filter by class ignores subclasses, the search does not).
* Show: `Ex.unnamed_object_breaks_printing` (a name and False are compared: TypeError), `Ex.short_names_merge` (two objects drawn as one node).
* Camel: `definition_lost` (A_1 and A1 become one entity, a definition is lost), `default_rel_not_renamed`, `description_taken_for_entity` (ValueError), `cuba_itself_inconsistent`, `cycle_not_converted` (RecursionError).
* Recycle: `moved_person_forgets_friends` and `change_oclass_then_delete_dangles` (change_oclass leaves one-way links), `refused_change_two_classes`, `recycle_depends_on_order` (RuntimeError depends on the order of a set), `recycle_self_link_fails`.
* Connect: `at_sign_in_password`, `wrong_host` (an unescaped @ in the password sends client and password to a host taken from the password), `password_not_decoded`, `stuck_forever` (a client session whose initialisation failed never recovers), `Ex.wrong_password` (its pending objects are lost).
* Draw: `Ex.automatic_inverse_depends_on_order` (the edge to an automatically created inverse is drawn or not depending on the enumeration order).
* Sim: `ex_no_city` (a simulation without city fails to load every person), `ex_friends` (a moved person keeps asymmetric links), `ex_steps_fixed` (changing the number of steps after the first run stops the simulation for good).
* Persist: `stale_type_kept` (an object loaded for the first time keeps the outdated class its neighbour brought along), `added_is_merged` (an object created with the uid of a stored object is merged with it), `literal_iris`, `clash_confuses` (a wrapper with the uid of a stored object).
* Full: `import_loses` (after `_rdf_import` the objects of the graph cannot be loaded, and objects of the session have lost their triples), `dangling_raises` (one stored relationship to an object that is not stored, and the whole database cannot be exported: AttributeError).
* Neighbor: `refused_assignment_loses` (`_neighbors[rel] = {...}` with a refused entry has removed the old neighbours and the session is not told), `entry_retypes` (setting an entry adds a class to the neighbour itself), `bool_stale` (`bool(_neighbors)` of an expired object is False although it has neighbours), `absent_keys`, `order_matters`.
* Equal: `equality_depends_on_order` (an object with two classes may differ from its exact copy), `lost_in_set` (an object changing its class is no longer found in a set through its copy in another session), `entities_confused`, `namespace_comparison_asymmetric` (comparing a namespace with an object raises AttributeError), `default_rel_raises_once` (an unknown default relationship raises the first time and is silently None afterwards).
* Stmt: no collision of parameters (C49) can be reached through the triple store (`query_plain`, `remove_plain`); only queries a wrapper builds by hand can collide.
* Value: setting a BOOL attribute to the text "False" sets it to True (`bool_text`); 2.5 set on an INT attribute is silently cut to 2 (`int_float`); a UUID attribute is read as text after export or transport (`export_uuid`) and makes a commit to sqlite fail with NotImplementedError (`sqlite_uuid`); nan is committed but the object cannot be loaded again (`sqlite_float`); an attribute without datatype comes back from the database with the datatype xsd:string (`sqlite_text`); a default that is a bool or float is converted by its lexical form, unlike a given value (`default_differs`).
* Setup: an attribute with a vector of more than 1998 elements (e.g. VECTOR:FLOAT:50:50) makes it impossible to open any sqlite session (`wide_vector_fails`); so does `VECTOR:INT` without sizes, which validation lets through (`shapeless_vector_fails`); if clearing the database fails half way, the database is rolled back but the session has already forgotten all objects and has nothing pending (`failed_clear_empties_session`).
* Remote: opening a wrapper through a client with other attribute values than the stored ones gives it both values, and the next commit stores both (`wrapper_gets_both_values`); a commit whose request is lost is forgotten, the retry succeeds without storing anything (`lost_commit`); loading a deleted object before the commit brings it back in the client while the commit deletes it in the database (`reload_revives`); a query by class that finds an object with changes that were not committed discards them, also those a failed commit left on the server (`query_discards_changes`, `query_discards_failed_commit`), and brings deleted objects back (`query_revives`).
* Fields: a default in a subclass does not lift the obligation of the superclass (`default_no_help`); if class and superclass list different defaults, the iteration order of a set decides which one is used (`order_decides`), and a false default such as 0 loses against the superclass's (`zero_loses`); a restriction without owl:onProperty makes reading the attributes raise TypeError (`dangling_raises`); owl:allValuesFrom makes an attribute obligatory (`all_values_demanded`).
* Pico: every exception is only logged, so the exit status of a failing pico command says success (`refused_reported`, `pico_never_raises`); a package called all cannot be uninstalled by its name, all packages are (`package_named_all`); because every command is a process of its own, a refused uninstall does no harm, unlike within one process.
* Migrate: the migration of an old installation moves the ontologies to a temporary directory that is deleted also on failure: every failure loses them (`failed_migration_loses`, `rename_fails_loses`); if one requires CUBA, all are lost and the import raises nothing (`requirement_outside_lost`, `cuba_required_lost`); a process killed while moving leaves the moved ontologies out of the next migration (`killed_while_moving`); an old installation without the directory `installed` makes every import fail (`nothing_installed`); the process that migrates reads the saved graph into the graph that is already there (`computed`).
* Names: of two namespaces whose prefixes differ only in upper and lower case, only the one bound last is found (`same_prefix_shadowed`); a namespace called like an attribute of the registry, e.g. load, cannot be imported (`namespace_called_load`).
* Shared databases: two sessions that change the same object overwrite each other without notice (`lost_update`); after a commit that fails in its last step a session shows contents that were never stored (`dirty_after_late_failure`).
* Clients: two clients that read the same object (or the wrapper, which has one place in the database for all clients) and modify it: the later commit silently discards the modification of the earlier one (`lost_update`); an object deleted by one client is stored again when another client that still has it modifies it (`deletion_undone`).
* C100: the files of an answer are read between awaits, so a request of another connection can change a file after its header was sent: the number of blocks announced is then wrong, the client takes the header of its next answer for the contents of the file (or waits forever), and all later answers on this connection are misread (`torn_file`). move_files copies over the same path when two clients store the same file object, so this can happen.
* C101: attributes of the ontology with certain names cannot be used by name: one called `uid`, `iri`, `session`, `oclass`, `get`, `add`, `update`, `remove`, … can be set (`obj.uid = 3` succeeds and changes the graph), but reading gives the member of Cuds (`members_kept`); one with an underscore is never set, a Python attribute is (`private_set`); one whose name is the lower case form of an earlier attribute of the class is unreachable (`shadowed`): its name reads and sets the other; one called `uid`, `session` or `_force` cannot be given to the constructor, and if it is obligatory the class cannot be instantiated (`parameters_taken`). An AttributeError raised inside a refresh is taken for a missing attribute (`refresh_fails`).
* C102: four ways in which a session shows a link from one side only, with nothing expired: an object loaded for the first time lets nobody expire, although objects already there may have gained a link to it (`new_object_half_link`); objects named in the same call of `load` are not expired, although of these only the expired ones are loaded (`mixed_load_half_link`); loading the wrapper again lets none of its neighbours expire (`wrapper_half_link`); a link that comes and goes again between two reads (`come_and_go_half_link`).
* C104: the first step of an iteration takes the expiry marks of all the objects it was asked for (`marks_taken`): reading one of the later objects shows old data (`stale_read`), and for good if the iteration is given up, as `first()` and `break` do (`given_up`). A change the user makes to a later object in the meantime is thrown away silently when the iteration reaches it, and the commit writes the old content (`lost_change`); a deleted object comes back in the session and is deleted from the database all the same (`deleted_comes_back`).
* C105: yaml2camelcase compares paths, not files: with another spelling of the path of the input (`..`, absolute, link; or a text and a Path) as output the original is overwritten without a backup (`alias_loses_original`, `kinds_lose_original`); another existing output is lost if the writing is interrupted (`other_output_lost`).
* C106: `load` removes the expiry marks before it asks the backend. If the backend fails, all objects of the call that were not reached count as current: the second read of the same object raises nothing and shows old data (`second_read_shows_old`), and repeating a change changes the old content, so that the next commit undoes what somebody else has stored (`undone_after_failure`). Only expiring or refreshing explicitly helps (`refresh_recovers`).
* C106: if the database fails while the wrapper is created, the constructor raises but the session keeps the wrapper as root and as added object; it is not opened by the next object, and the commit merges the wrapper with what is stored (`failed_open`, `open_fails_silently`).
* C107: behind a server as without one (C106): a read that is refused because the database is down removes the expiry mark on the client and on the server; when the database is up again the old content is shown without an error (`outage_forgets`).
* C108: the copy of an object with content cannot be added to a session: the call raises AttributeError ('NoneType' object has no attribute ...) at the first child - after the present version of the object in that session was overwritten with the copied attribute values, and with links to objects that are not there (`copy_with_content`, `content_overwritten`, `content_dangles`).
* C109: `pico uninstall` and `pico install --overwrite` delete the installation directory before they write it again: a process killed in between loses all packages (`clear_killed_loses`, `uninstall_killed`). Repeating the killed command does not help: `uninstall` is then refused, `install --overwrite` succeeds with the named packages only (`uninstall_lost`, `overwrite_lost`). A `pico install` killed after the package files but before graph.xml were written leaves packages that count as installed without being loaded; repeating the command skips them with success (`killed_then_skipped`, `turtle_skipped`).
* C109: a process killed while graph.xml is written leaves an installation that cannot be loaded: importing the namespaces raises in every program, also in pico itself, so that no pico command can repair it (`graph_torn`).
