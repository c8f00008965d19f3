{"id": "C01", "title": "Message headers survive the wire", "statement": "For every list of field widths and every list of header values, encoding a header either raises (value count does not match the widths, or a number does not fit its width) or produces bytes from which decoding with the same widths returns exactly the same values; the only value that is not returned is an empty trailing string.", "quantifier": "all width lists, all integers, all trailing strings", "why_tests_cant": "the claim is about every integer magnitude and every width, including the overflow boundary 256^w", "anchors": ["osp/core/session/transport/communication_utils.py:encode_header", "osp/core/session/transport/communication_utils.py:decode_header"]}
{"id": "C02", "title": "Payload blocking is lossless", "statement": "For every payload and every positive block size, splitting announces exactly the number of blocks it then yields, no block is empty or longer than the block size, and joining the announced number of blocks from the stream gives back the payload and leaves the rest of the stream unread.", "quantifier": "all payload lengths, all block sizes, any following frames", "why_tests_cant": "boundary lengths (0, k*bs, k*bs+1) exist for every k", "anchors": ["osp/core/session/transport/communication_utils.py:split_message", "osp/core/session/transport/communication_utils.py:join_message"]}
{"id": "C03", "title": "File transfer reproduces the sent files", "statement": "For every list of files with non-empty base names, the receiver's target directory afterwards contains for every sent base name the contents of the last sent file of that base name, other entries are untouched, and the path reported back for each file is the target directory joined with its base name.", "quantifier": "all file lists, sizes, and directory contents", "why_tests_cant": "file sizes relative to the block size and name collisions are unbounded", "anchors": ["osp/core/session/transport/communication_utils.py:encode_files", "osp/core/session/transport/communication_utils.py:receive_files"]}
{"id": "C04", "title": "Requests and responses are delivered as sent", "statement": "For every command, payload and file list whose sizes fit the header, what the server decodes from the frames a client encoded is exactly that command, payload and files, and it consumes exactly those frames; likewise for responses; a header with another protocol version is rejected before anything is executed.", "quantifier": "all commands, payloads, file lists, and streams of subsequent messages", "why_tests_cant": "messages share one stream: a miscount by one frame corrupts every later message, for any history", "anchors": ["osp/core/session/transport/communication_engine.py:CommunicationEngineServer._serve", "osp/core/session/transport/communication_engine.py:CommunicationEngineServer._decode", "osp/core/session/transport/communication_engine.py:CommunicationEngineClient._request", "osp/core/session/transport/communication_engine.py:CommunicationEngineClient._encode"]}
{"id": "C05", "title": "A file already known to the receiver is not sent twice and never skipped wrongly", "statement": "Over any sequence of transfers, a file is transmitted exactly if it exists and its (name, content hash) is not already recorded for that receiver, and after a transfer the recorded hash of every considered existing file is its current hash.", "quantifier": "all histories of file versions and transfers", "why_tests_cant": "the hash table is history dependent", "anchors": ["osp/core/session/transport/communication_utils.py:filter_files", "osp/core/session/transport/transport_utils.py:check_hash"]}
{"id": "C06", "title": "JSON value transport round trip", "statement": "For every value built from None, booleans, numbers, strings, UUIDs, ontology entities, CUDS objects, lists and dictionaries (without the reserved one-key dictionaries and JSON-LD shaped lists) deserialising the serialised form gives the same value; for the reserved shapes it does not.", "quantifier": "all finite nested values", "why_tests_cant": "nested values are unbounded", "anchors": ["osp/core/session/transport/transport_utils.py:serializable", "osp/core/session/transport/transport_utils.py:deserialize"]}
{"id": "C07", "title": "Only exported session methods can be called remotely", "statement": "For every server state, connection and command string, a session method is executed only if the command does not start with an underscore, the connection has initialised a session, the method exists and is callable and is not part of the generic wrapper session API; all other commands produce an error response and leave all sessions unchanged.", "quantifier": "all command strings, session classes and server states", "why_tests_cant": "attackers choose the command; a test samples a few names", "anchors": ["osp/core/session/transport/transport_session_server.py:TransportSessionServer.handle_request"]}
{"id": "C08", "title": "Connections are isolated", "statement": "For every interleaving of requests and disconnects of any number of connections, the session state and the responses seen by one connection depend only on that connection's own requests.", "quantifier": "all interleavings of all connections", "why_tests_cant": "number of interleavings is unbounded", "anchors": ["osp/core/session/transport/transport_session_server.py:TransportSessionServer.handle_request", "osp/core/session/transport/transport_session_server.py:TransportSessionServer.handle_disconnect", "osp/core/session/transport/transport_session_server.py:TransportSessionServer._init_session"]}
{"id": "C09", "title": "A failing request does not take the server down or leak a session", "statement": "Every request gets a response; an exception becomes an error response; after a disconnect the connection has no session and the session that was registered for it has been closed exactly once.", "quantifier": "all histories of requests, including ones that raise at any point", "why_tests_cant": "failure positions in histories", "anchors": ["osp/core/session/transport/transport_session_server.py:TransportSessionServer.handle_request", "osp/core/session/transport/transport_session_server.py:TransportSessionServer.handle_disconnect", "osp/core/session/transport/transport_session_server.py:TransportSessionServer._init_session"]}
{"id": "C10", "title": "Change buffers classify every object at most once", "statement": "In every reachable state of a wrapper session, for each buffer context, no object is in two of the added, updated and deleted buffers.", "quantifier": "all histories of store, update, delete, expire, commit, and backend (engine context) operations", "why_tests_cant": "history dependent", "anchors": ["osp/core/session/wrapper_session.py:WrapperSession._store", "osp/core/session/wrapper_session.py:WrapperSession._notify_update", "osp/core/session/wrapper_session.py:WrapperSession._notify_delete", "osp/core/session/wrapper_session.py:WrapperSession._reset_buffers"]}
{"id": "C11", "title": "Buffers describe the net change", "statement": "After any history of creations, modifications and deletions since the last synchronisation, every object that is registered and was not at synchronisation is in the added buffer, every object that was registered and is not any more is in the deleted buffer, every object modified by the user is in added or updated, and nothing else is in the buffers.", "quantifier": "all operation histories", "why_tests_cant": "net effect of arbitrary cancelling sequences (add-delete-add, delete-recreate, ...)", "anchors": ["osp/core/session/wrapper_session.py:WrapperSession._store", "osp/core/session/wrapper_session.py:WrapperSession._notify_update", "osp/core/session/wrapper_session.py:WrapperSession._notify_delete"]}
{"id": "C12", "title": "Pending user changes are never overwritten by a refresh", "statement": "An object with unsynchronised user changes is never marked as expired by an expire request, so reading it does not reload it from the backend; expired objects are always registered objects at the moment expire is called.", "quantifier": "all states and all sets of uids to expire", "why_tests_cant": "all buffer states", "anchors": ["osp/core/session/wrapper_session.py:WrapperSession._expire", "osp/core/session/wrapper_session.py:WrapperSession.expire_all", "osp/core/session/wrapper_session.py:WrapperSession._notify_read"]}
{"id": "C13", "title": "Backend loading does not count as user changes", "statement": "Whatever a backend does inside an engine context (nested to any depth, normal or exceptional exit), the user buffers are unchanged and the previous buffer context is restored.", "quantifier": "all programs run in the engine context, all nesting depths, all exception points", "why_tests_cant": "all backend programs", "anchors": ["osp/core/session/buffers.py:EngineContext", "osp/core/session/buffers.py:EngineContextIterator"]}
{"id": "C14", "title": "Commit, run and save consume the pending changes", "statement": "After a successful commit/run/save all user buffers are empty, and what was applied to the backend is exactly the buffers' content before the call.", "quantifier": "all states", "why_tests_cant": "all buffer contents", "anchors": ["osp/core/session/db/db_wrapper_session.py:DbWrapperSession.commit", "osp/core/session/sim_wrapper_session.py:SimWrapperSession.run", "osp/core/session/file_wrapper_session.py:FileWrapperSession.save"]}
{"id": "C15", "title": "A session has at most one wrapper and it is the root", "statement": "In every history of stores into a wrapper session, the root is the first object stored, it is a wrapper, and no other wrapper is ever registered.", "quantifier": "all store histories", "why_tests_cant": "history dependent", "anchors": ["osp/core/session/wrapper_session.py:WrapperSession._store_checks", "osp/core/session/wrapper_session.py:WrapperSession._store", "osp/core/session/session.py:Session._store"]}
{"id": "C16", "title": "Relationships are symmetric with their inverses", "statement": "In every state reachable by creating objects, adding and removing relationships and setting attributes in a session, (a, r, b) holds iff (b, inverse r, a) holds.", "quantifier": "all histories of add/remove/setattr over any objects and relationships", "why_tests_cant": "history dependent", "anchors": ["osp/core/cuds.py:Cuds.add", "osp/core/cuds.py:Cuds.remove", "osp/core/cuds.py:Cuds._add_direct", "osp/core/cuds.py:Cuds._add_inverse", "osp/core/cuds.py:Cuds._remove_direct", "osp/core/cuds.py:Cuds._remove_inverse"]}
{"id": "C17", "title": "add connects exactly the given objects, or raises", "statement": "Adding objects of the same session adds exactly the links (self, rel, x) and (x, inverse rel, self); adding an object that is already connected with that relationship raises ValueError, and the objects listed before it stay connected (the call is not atomic).", "quantifier": "all states, all argument lists", "why_tests_cant": "all states and argument lists", "anchors": ["osp/core/cuds.py:Cuds.add"]}
{"id": "C18", "title": "remove deletes exactly the matching links in both directions", "statement": "remove with uids/objects, rel and oclass filters deletes (self, r, x) and (x, inverse r, self) for exactly the x and r (sub relationships of rel) that match, nothing else changes; if nothing matches it raises RuntimeError and changes nothing.", "quantifier": "all states and filters", "why_tests_cant": "all graphs and sub-relationship hierarchies", "anchors": ["osp/core/cuds.py:Cuds.remove", "osp/core/cuds.py:Cuds._get", "osp/core/cuds.py:Cuds._remove_direct", "osp/core/cuds.py:Cuds._remove_inverse"]}
{"id": "C19", "title": "get answers are exact", "statement": "get(rel, oclass) returns exactly the objects connected by a sub relationship of rel whose class is a subclass of oclass, without duplicates; get(*uids) returns one entry per requested uid in the requested order, None for those not connected; invalid filter combinations raise.", "quantifier": "all graphs, all filters, all uid lists", "why_tests_cant": "all graphs and query combinations", "anchors": ["osp/core/cuds.py:Cuds.get", "osp/core/cuds.py:Cuds.iter", "osp/core/cuds.py:Cuds._get", "osp/core/cuds.py:Cuds._get_by_uids", "osp/core/cuds.py:Cuds._get_by_oclass"]}
{"id": "C20", "title": "Attributes are single valued, last write wins", "statement": "After any history of attribute writes on any objects, reading an attribute returns the last value written to that attribute of that object (or the constructor value), and each object has exactly one value per attribute.", "quantifier": "all write histories", "why_tests_cant": "history dependent", "anchors": ["osp/core/cuds.py:Cuds.__getattr__", "osp/core/cuds.py:Cuds.__setattr__", "osp/core/cuds.py:Cuds.__init__"]}
{"id": "C21", "title": "Deleting an object removes it and every link to and from it", "statement": "After deleting a CUDS object from a session, the object is not registered and no triple has it as subject or as object, other objects keep their attributes and their other links.", "quantifier": "all states with symmetric links", "why_tests_cant": "all graphs", "anchors": ["osp/core/session/session.py:Session.delete_cuds_object", "osp/core/session/session.py:Session._delete_cuds_triples", "osp/core/cuds.py:Cuds.remove"]}
{"id": "C22", "title": "Prune keeps exactly what the root reaches", "statement": "After prune(rel) the registered objects are exactly those that were reachable from the root over sub relationships of rel.", "quantifier": "all graphs including cyclic ones", "why_tests_cant": "all graphs", "anchors": ["osp/core/session/session.py:Session.prune", "osp/core/session/registry.py:Registry.prune", "osp/core/session/registry.py:Registry._get_not_reachable", "osp/core/session/registry.py:Registry.get_subtree"]}
{"id": "C23", "title": "Subtree queries terminate and return exactly the reachable objects", "statement": "get_subtree(root, rel, skip) terminates on every graph and returns exactly the objects reachable from root over rel by paths avoiding the skipped objects.", "quantifier": "all graphs including cyclic ones", "why_tests_cant": "cyclic graphs of any size", "anchors": ["osp/core/session/registry.py:Registry.get_subtree"]}
{"id": "C24", "title": "Adding an object from another session copies its reachable subtree", "statement": "Adding (or updating with) an object of another session terminates and copies exactly the objects reachable from it over active relationships, with class, attributes and mutual links; a copied object is linked to other objects of the target session as in the source (links to objects that exist in neither the copy nor the target are dropped, links to former content are removed in both directions); all other objects and the links between them are unchanged. Precondition: a uid has the same class in both sessions, replaced objects are not linked to themselves.", "quantifier": "all source and target sessions, all enumeration orders", "why_tests_cant": "all graphs, cyclic ones included, and all orders", "anchors": ["osp/core/cuds.py:Cuds.add", "osp/core/cuds.py:Cuds.update", "osp/core/cuds.py:Cuds._recursive_store", "osp/core/cuds.py:Cuds._fix_neighbors", "osp/core/cuds.py:Cuds._fix_new_parents", "osp/core/utils/wrapper_development.py:create_from_cuds_object", "osp/core/utils/wrapper_development.py:create_recycle"]}
{"id": "C25", "title": "Re-importing an object does not lose its old parents", "statement": "When an object already present in the target session is replaced by a newer version from another session, its parents in the target session that are not part of the new version stay connected.", "quantifier": "all old and new neighbourhoods", "why_tests_cant": "depends on counts of relationship kinds", "anchors": ["osp/core/cuds.py:Cuds._fix_old_neighbors"]}
{"id": "C26", "title": "Search returns exactly the reachable matching objects", "statement": "find_cuds_object(criterion, root, rel, find_all=True) without depth limit returns every object reachable from root over rel that satisfies the criterion, exactly once; with find_all=False it returns one of them, or None iff there is none. With max_depth every returned object is within that distance.", "quantifier": "all graphs, criteria, roots", "why_tests_cant": "cyclic graphs of any size and shape", "anchors": ["osp/core/utils/simple_search.py:find_cuds_object", "osp/core/utils/simple_search.py:find_cuds_object_by_uid", "osp/core/utils/simple_search.py:find_cuds_objects_by_oclass"]}
{"id": "C27", "title": "Depth limited search is complete", "statement": "find_cuds_object with max_depth=d returns every matching object at distance at most d.", "quantifier": "all graphs and depths", "why_tests_cant": "depends on visiting order in all graphs", "anchors": ["osp/core/utils/simple_search.py:find_cuds_object"]}
{"id": "C28", "title": "superclasses/subclasses are the reflexive transitive closure", "statement": "For every ontology graph, also with cycles, superclasses and subclasses of an entity terminate and are exactly the reflexive-transitive closure of the direct links (minus the fixed blacklist), each entity once.", "quantifier": "all ontology graphs", "why_tests_cant": "graphs of any size with cycles", "anchors": ["osp/core/ontology/entity.py:OntologyEntity.superclasses", "osp/core/ontology/entity.py:OntologyEntity.subclasses", "osp/core/ontology/entity.py:OntologyEntity._transitive_hull", "osp/core/ontology/entity.py:OntologyEntity._directly_connected"]}
{"id": "C29", "title": "Subclass and superclass tests agree and form a preorder", "statement": "a.is_subclass_of(b) iff b.is_superclass_of(a), iff b in a.superclasses, iff a in b.subclasses; the relation is reflexive and transitive.", "quantifier": "all pairs of entities of all ontologies", "why_tests_cant": "all graphs", "anchors": ["osp/core/ontology/entity.py:OntologyEntity.is_superclass_of", "osp/core/ontology/entity.py:OntologyEntity.is_subclass_of"]}
{"id": "C30", "title": "inverse is an involution and stable", "statement": "For every relationship the inverse of the inverse is the relationship itself, asking again returns the same relationship, and creating an inverse never changes the inverse of any other relationship.", "quantifier": "all ontology graphs satisfying the one-inverse condition, all query histories", "why_tests_cant": "history dependent: inverses are created lazily in any order", "anchors": ["osp/core/ontology/relationship.py:OntologyRelationship.inverse", "osp/core/ontology/relationship.py:OntologyRelationship._add_inverse"]}
{"id": "C31", "title": "Lazily created inverses respect the hierarchy", "statement": "A lazily created inverse is a sub relationship of the inverse of every direct super relationship.", "quantifier": "all hierarchies and orders of queries", "why_tests_cant": "any order of lazily created inverses", "anchors": ["osp/core/ontology/relationship.py:OntologyRelationship._add_inverse"]}
{"id": "C32", "title": "Attribute datatype is unique or an error", "statement": "The datatype of an attribute is the only non-trivial range among its super attributes, None if there is none and an error if there are several.", "quantifier": "all ontologies", "why_tests_cant": "all graphs", "anchors": ["osp/core/ontology/attribute.py:OntologyAttribute.datatype"]}
{"id": "C33", "title": "Constructor arguments are resolved exactly", "statement": "Instantiating a class assigns to each of its attributes the keyword given under its name (or lower case name), else its default, raises TypeError if an obligatory attribute is missing or an unknown keyword is left; no keyword is silently dropped.", "quantifier": "all attribute lists, keyword maps", "why_tests_cant": "all keyword combinations", "anchors": ["osp/core/ontology/oclass.py:OntologyClass._get_attributes_values"]}
{"id": "C34", "title": "Installation order respects requirements", "statement": "Packages are installed in an order where every package comes after all its requirements; if no such order exists an error is raised; every requested package not yet installed is installed exactly once.", "quantifier": "all requirement graphs", "why_tests_cant": "all dependency graphs and input orders", "anchors": ["osp/core/ontology/installation.py:OntologyInstallationManager._sort_for_installation", "osp/core/ontology/installation.py:OntologyInstallationManager._get_new_packages", "osp/core/ontology/installation.py:OntologyInstallationManager._get_replaced_packages"]}
{"id": "C35", "title": "Uninstall keeps exactly the other packages, or changes nothing", "statement": "After uninstalling a set of packages exactly the others are installed; if the request is rejected (unknown package, requirement would break) the installed set and the registry are unchanged.", "quantifier": "all installed sets, all requests", "why_tests_cant": "all combinations", "anchors": ["osp/core/ontology/installation.py:OntologyInstallationManager._get_remaining_packages", "osp/core/ontology/installation.py:OntologyInstallationManager._install"]}
{"id": "C36", "title": "Vector columns round trip", "statement": "For every table row with scalar and vector columns (any shapes), expanding the columns and values for SQL and contracting the loaded row returns the original row.", "quantifier": "all column lists, shapes and values", "why_tests_cant": "all interleavings of vector and scalar columns", "anchors": ["osp/core/session/db/sql_util.py:expand_vector_cols", "osp/core/session/db/sql_util.py:contract_vector_values", "osp/core/session/db/sql_util.py:handle_vector_item", "osp/core/session/db/sql_util.py:get_expanded_cols"]}
{"id": "C37", "title": "Data table names identify the datatype", "statement": "For every datatype the table name determines the datatype and different datatypes have different tables.", "quantifier": "all datatypes (xsd names, string lengths, vector shapes)", "why_tests_cant": "unbounded set of vector shapes", "anchors": ["osp/core/session/db/sql_util.py:get_data_table_name", "osp/core/session/db/sql_util.py:determine_datatype"]}
{"id": "C38", "title": "SQL identifiers with forbidden characters are rejected", "statement": "check_characters raises for every argument that contains a forbidden character in any nested position.", "quantifier": "all nested arguments", "why_tests_cant": "all strings and nestings", "anchors": ["osp/core/session/db/sql_util.py:check_characters"]}
{"id": "C39", "title": "The SQL triple tables implement a set of triples", "statement": "Over any history of adding and removing triples, querying by pattern returns exactly the triples added and not removed that match, each once.", "quantifier": "all histories, patterns", "why_tests_cant": "normalisation into five kinds of tables with lazily allocated ids, all histories", "anchors": ["osp/core/session/db/sql_wrapper_session.py:SqlWrapperSession._triples", "osp/core/session/db/sql_wrapper_session.py:SqlWrapperSession._add", "osp/core/session/db/sql_wrapper_session.py:SqlWrapperSession._remove", "osp/core/session/db/sql_wrapper_session.py:SqlWrapperSession._determine_table", "osp/core/session/db/sql_wrapper_session.py:SqlWrapperSession._get_cuds_idx", "osp/core/session/db/sql_wrapper_session.py:SqlWrapperSession._get_entity_idx"]}
{"id": "C40", "title": "Root substitution is lossless", "statement": "Replacing the root's IRI by the zero IRI on writing and back on reading gives back the stored triples for every graph not mentioning the zero IRI.", "quantifier": "all triple sets", "why_tests_cant": "all graphs", "anchors": ["osp/core/session/db/triplestore_wrapper_session.py:TripleStoreWrapperSession._substitute_root_iri", "osp/core/session/db/triplestore_wrapper_session.py:TripleStoreWrapperSession._substitute_zero_iri"]}
{"id": "C41", "title": "Committing makes the database equal to the session", "statement": "After a successful commit, for every object in the user's buffers the stored triples are exactly the session's triples of that object (deleted: none), all other stored triples are unchanged.", "quantifier": "all histories of operations between commits", "why_tests_cant": "net effect over histories", "anchors": ["osp/core/session/db/db_wrapper_session.py:DbWrapperSession.commit", "osp/core/session/db/triplestore_wrapper_session.py:TripleStoreWrapperSession._apply_added", "osp/core/session/db/triplestore_wrapper_session.py:TripleStoreWrapperSession._apply_updated", "osp/core/session/db/triplestore_wrapper_session.py:TripleStoreWrapperSession._apply_deleted"]}
{"id": "C42", "title": "Commit is atomic and retryable", "statement": "If a commit fails at any point, the database content is unchanged, and the pending changes are still buffered so that a later commit writes them.", "quantifier": "all failure points", "why_tests_cant": "crash points", "anchors": ["osp/core/session/db/db_wrapper_session.py:DbWrapperSession.commit"]}
{"id": "C43", "title": "Reloading after commit gives back the committed objects", "statement": "A new session on the same database loads, for every object, exactly the triples committed for it.", "quantifier": "all committed states", "why_tests_cant": "all graphs", "anchors": ["osp/core/session/db/triplestore_wrapper_session.py:TripleStoreWrapperSession._load_from_backend", "osp/core/session/db/triplestore_wrapper_session.py:TripleStoreWrapperSession._load_by_iri", "osp/core/session/db/triplestore_wrapper_session.py:TripleStoreWrapperSession._load_first_level"]}
{"id": "C44", "title": "Schema version detection and migration decisions are sound", "statement": "The detected version is the smallest version whose table names all occur, an empty database counts as newest, unknown table sets are refused, and migration is offered only for a supported path.", "quantifier": "all table sets", "why_tests_cant": "all sets of tables", "anchors": ["osp/core/session/db/sql_migrate.py:detect_current_schema_version", "osp/core/session/db/sql_migrate.py:check_supported_schema_version", "osp/core/session/db/sql_migrate.py:SqlMigrate"]}
{"id": "C45", "title": "uid and IRI conversion are inverse", "statement": "uid_from_iri(iri_from_uid(u)) = u for every uid and the conversion is injective; IRIs with another prefix are rejected.", "quantifier": "all uids and IRIs", "why_tests_cant": "all 128 bit values", "anchors": ["osp/core/utils/general.py:iri_from_uid", "osp/core/utils/general.py:uid_from_iri"]}
{"id": "C46", "title": "QueryResult is a faithful, cached view", "statement": "For any interleaving of iteration, membership, all(), first() and one(), every call answers as on the full list of the underlying iterator, which is consumed at most once per element; one() raises MultipleResultsError iff there is more than one element and EmptyResultError iff there is none (or the single element is None); each iterator yields elements in order without repetition, and an iteration not interleaved with other calls yields all of them.", "quantifier": "all underlying sequences and interleavings of calls", "why_tests_cant": "all interleavings", "anchors": ["osp/core/session/result.py:QueryResult"]}
{"id": "C47", "title": "Cardinality strings are interpreted as documented", "statement": "'a' means exactly a, 'a-b' between, 'a+' at least, anything else arbitrary; a check raises iff the count is outside the interval.", "quantifier": "all numbers and counts", "why_tests_cant": "all numbers", "anchors": ["osp/core/utils/schema_validation.py:_interpret_cardinality", "osp/core/utils/schema_validation.py:_check_cardinality"]}
{"id": "C48", "title": "Schema validation accepts exactly the conforming trees", "statement": "validate_tree_against_schema raises CardinalityError iff some object reachable from the root violates a cardinality of its class in the schema, ConsistencyError iff the schema is contradictory or an object of a required class is missing, and otherwise accepts.", "quantifier": "all finite trees and schemas", "why_tests_cant": "all trees", "anchors": ["osp/core/utils/schema_validation.py:validate_tree_against_schema", "osp/core/utils/schema_validation.py:_traverse_tree_and_group"]}
{"id": "C49", "title": "SQL conditions never mix user data into the statement", "statement": "For every condition tree, user values appear only as bound parameters, the parameter names in the pattern are pairwise distinct and each is bound to the value of its own condition.", "quantifier": "all condition trees", "why_tests_cant": "all nestings, name collisions", "anchors": ["osp/wrappers/sqlite/sqlite_session.py:SqliteSession._get_condition_pattern", "osp/core/session/db/sql_util.py:AndCondition", "osp/core/session/db/sql_util.py:EqualsCondition"]}
{"id": "C50", "title": "Stored strings come back unchanged from sqlite", "statement": "Every string attribute value written to sqlite is read back identical.", "quantifier": "all strings", "why_tests_cant": "all strings, including numeric looking", "anchors": ["osp/wrappers/sqlite/sqlite_session.py:SqliteSession._to_sqlite_datatype", "osp/core/session/db/sql_util.py:convert_values"]}
{"id": "C51", "title": "Neighbor diff is exact", "statement": "get_neighbor_diff(a, b, mode) returns exactly the pairs (uid, relationship) that are links of a and not of b, restricted to the relationships of the mode, each once; None has no links; an unknown mode raises ValueError.", "quantifier": "all pairs of objects, all modes, all enumeration orders", "why_tests_cant": "all graphs", "anchors": ["osp/core/utils/wrapper_development.py:get_neighbor_diff"]}
{"id": "C52", "title": "Vector attribute values round trip through their literal form", "statement": "Converting an array of the declared shape to its stored form and back gives the same array; arrays of other sizes are rejected.", "quantifier": "all shapes and contents", "why_tests_cant": "all shapes", "anchors": ["osp/core/ontology/datatypes.py:to_vector", "osp/core/ontology/datatypes.py:from_vector", "osp/core/ontology/datatypes.py:_parse_vector_args"]}
{"id": "C53", "title": "Entity lookup by name is deterministic and case tolerant", "statement": "A namespace lookup returns the entity with that exact name if it exists, otherwise the camelCase / CamelCase / UPPER form, otherwise it raises with a suggestion; exact matches are never shadowed.", "quantifier": "all names, all namespaces", "why_tests_cant": "all strings", "anchors": ["osp/core/ontology/namespace.py:OntologyNamespace._get", "osp/core/ontology/namespace.py:OntologyNamespace._get_case_insensitive", "osp/core/ontology/yml/case_insensitivity.py:get_case_insensitive_alternative"]}
{"id": "C54", "title": "Namespace resolution of an IRI is consistent", "statement": "The namespace IRI and name found for an IRI concatenate back to the IRI; if a bound namespace is a prefix of the IRI, a bound namespace is used.", "quantifier": "all IRIs and namespace tables", "why_tests_cant": "all strings", "anchors": ["osp/core/ontology/namespace_registry.py:NamespaceRegistry._get_namespace_name_and_iri", "osp/core/ontology/namespace_registry.py:NamespaceRegistry.from_iri"]}
{"id": "C55", "title": "YAML format validation accepts exactly the documents of the schema", "statement": "validate passes iff the document satisfies every mandatory key, format and type of the pattern tree.", "quantifier": "all YAML documents and patterns", "why_tests_cant": "all nested documents", "anchors": ["osp/core/ontology/yml/yml_validator.py:validate", "osp/core/ontology/yml/yml_validator.py:_validate_format"]}
{"id": "C56", "title": "Path conversion follows the server's path style", "statement": "Converting a path yields a path with the same components in the target style; mixed-separator paths are rejected.", "quantifier": "all paths", "why_tests_cant": "all strings", "anchors": ["osp/core/session/transport/transport_utils.py:_convert_path_of_file_cuds", "osp/core/session/transport/transport_utils.py:_determine_path_type_of_file_cuds"]}
{"id": "C57", "title": "Simulation sessions apply changes before each run", "statement": "run applies added, updated, deleted in this order, before starting the simulation, then expires everything; a second run without changes applies nothing.", "quantifier": "all histories of runs", "why_tests_cant": "history dependent", "anchors": ["osp/core/session/sim_wrapper_session.py:SimWrapperSession.run"]}
{"id": "C58", "title": "Client and server sessions agree after synchronisation", "statement": "After the server processes the client's serialised buffers, every object in the client's added/updated buffers is registered on the server with the client's triples and every deleted one is not registered; the client's buffers are empty.", "quantifier": "all client states", "why_tests_cant": "all graphs", "anchors": ["osp/core/session/transport/transport_utils.py:serialize_buffers", "osp/core/session/transport/transport_utils.py:deserialize_buffers"]}
{"id": "C59", "title": "Receiving files is confined to the target directory", "statement": "For arbitrary (also malicious) frames and file names, receiving files creates files only directly inside the target directory, also when receiving fails half way; then the files before are complete and one more may hold what has come of it.", "quantifier": "all frame sequences and names", "why_tests_cant": "all strings", "anchors": ["osp/core/session/transport/communication_utils.py:receive_files"]}
{"id": "C60", "title": "Recursive deletion removes exactly the reachable objects", "statement": "delete_cuds_object_recursively removes exactly the objects reachable over the given relationship and every triple mentioning them; everything else is unchanged.", "quantifier": "all graphs and start objects", "why_tests_cant": "all graphs, cyclic ones included", "anchors": ["osp/core/utils/general.py:delete_cuds_object_recursively"]}
{"id": "C61", "title": "Attributes are inherited from all superclasses", "statement": "A class has exactly the attributes any of its superclasses states, each once; an attribute is obligatory iff some superclass makes it so; its default is one of the stated defaults and is set if a truthy default is stated.", "quantifier": "all class hierarchies, all iteration orders of the superclass set", "why_tests_cant": "all graphs and orders", "anchors": ["osp/core/ontology/oclass.py:OntologyClass.attributes", "osp/core/ontology/oclass.py:OntologyClass._get_attributes"]}
{"id": "C62", "title": "Attached files are stored under their object's uid and nowhere else", "statement": "Moving the files of file objects writes only directly inside the target directory, to names beginning with the object's uid; files of different objects never collide, whatever their names, and every object's new path holds exactly the content of its old one.", "quantifier": "all paths, names, sets of file objects", "why_tests_cant": "all strings and sets of objects", "anchors": ["osp/core/session/transport/transport_utils.py:move_files"]}
{"id": "C63", "title": "Files reach the server unchanged", "statement": "For every set of file objects in a request, the server ends up with a file per object in its file directory with the content it has on the client, and each object's path is its own file's.", "quantifier": "all sets of files, sizes and names", "why_tests_cant": "all sizes, names and name collisions", "anchors": ["osp/core/session/transport/transport_utils.py:move_files", "osp/core/session/transport/transport_utils.py:serialize_buffers", "osp/core/session/transport/communication_utils.py:send_files", "osp/core/session/transport/communication_utils.py:receive_files"]}
{"id": "C64", "title": "The server only sends files from its file directory", "statement": "Whatever paths clients give their file objects, the files a server sends back are files of its own file directory.", "quantifier": "all requests", "why_tests_cant": "arbitrary (malicious) paths", "anchors": ["osp/core/session/transport/transport_utils.py:move_files", "osp/core/session/transport/transport_utils.py:serialize_buffers"]}
{"id": "C65", "title": "The session root is the first object", "statement": "Over every history of operations the root of a session is the object that was created first.", "quantifier": "all histories", "why_tests_cant": "history dependent", "anchors": ["osp/core/session/session.py:Session._store"]}
{"id": "C66", "title": "Datatypes of YAML ontologies keep their meaning", "statement": "A datatype written in a YAML ontology (BOOL, INT, FLOAT, STRING, STRING:n, VECTOR:n:m, VECTOR:INT:n:m...) is stored in the ontology graph such that the attribute gives back exactly that type: the same basic type, the same maximal length, the same element type and shape. Values longer than the maximal length are refused. Every datatype text the YAML validator accepts either has such a meaning or is refused when it is installed or used.", "quantifier": "all datatype texts, all sizes, all values", "why_tests_cant": "infinitely many datatype texts", "anchors": ["osp/core/ontology/datatypes.py:get_rdflib_datatype", "osp/core/ontology/datatypes.py:get_python_datatype", "osp/core/ontology/datatypes.py:_parse_vector_args", "osp/core/ontology/datatypes.py:to_string"]}
{"id": "C67", "title": "Installing a YAML ontology adds exactly what the document says", "statement": "Parsing a YAML ontology adds to the ontology graph, for every entity, its label, its description, the kind of its superclasses, the link to each superclass, its inverse, datatype and default relationship, and for every attribute of a class one restriction (with the default value, if one is given) with nodes of its own; it adds nothing else, and everything in the graph before stays. References mean the same while the graph grows.", "quantifier": "all YAML documents, all graphs, any order in which the graph enumerates its triples", "why_tests_cant": "all documents, all orders of entities, self and forward references", "anchors": ["osp/core/ontology/yml/yml_parser.py:YmlParser.parse", "osp/core/ontology/yml/yml_parser.py:YmlParser._load_entity", "osp/core/ontology/yml/yml_parser.py:YmlParser._add_type_triple", "osp/core/ontology/yml/yml_parser.py:YmlParser._add_attributes", "osp/core/ontology/yml/yml_parser.py:YmlParser._get_iri"]}
{"id": "C68", "title": "A YAML ontology is parsed exactly if it is well formed", "statement": "Parsing succeeds exactly if the document has the right format, all references exist, the superclasses have no cycle, each entity inherits exactly one kind and has only keys of that kind, at most one default relationship is given, and attributes of classes are attributes; otherwise it ends with an exception.", "quantifier": "all YAML documents and graphs", "why_tests_cant": "all documents, termination", "anchors": ["osp/core/ontology/yml/yml_parser.py:YmlParser.parse", "osp/core/ontology/yml/yml_parser.py:YmlParser._add_type_triple", "osp/core/ontology/yml/yml_parser.py:YmlParser._validate_entity", "osp/core/ontology/yml/yml_parser.py:YmlParser._assert_default_relationship_occurrence"]}
{"id": "C69", "title": "The order of the entities in a YAML ontology does not matter", "statement": "Two documents that differ in the order of their entities are either both parsed or both refused, and give the same graph up to the naming of blank nodes.", "quantifier": "all documents and permutations of their entities", "why_tests_cant": "all permutations", "anchors": ["osp/core/ontology/yml/yml_parser.py:YmlParser._parse_ontology", "osp/core/ontology/yml/yml_parser.py:YmlParser._load_entity"]}
{"id": "C70", "title": "Export and import of objects is lossless", "statement": "serialize(obj) writes one document for each object reachable from obj (over the given relationship), in traversal order; deserialize in any session gives back obj, and each of these objects answers as in the exporting session: same class, same attribute values, same links in and among the exported set. Other objects of the importing session keep their attributes and links; importing into the exporting session changes nothing. If everything reachable over any relationship is exported, the importing session is coherent again.", "quantifier": "all sessions reachable by API calls, all start objects, all target sessions, all orders in which the documents enumerate their triples", "why_tests_cant": "all graphs, cyclic ones included, all enumeration orders", "anchors": ["osp/core/utils/general.py:serialize", "osp/core/utils/general.py:deserialize", "osp/core/session/transport/transport_utils.py:serializable", "osp/core/session/transport/transport_utils.py:deserialize", "osp/core/utils/wrapper_development.py:create_from_triples", "osp/core/cuds.py:Cuds.get_triples"]}
{"id": "C71", "title": "Installing an RDF ontology adds exactly the file and what its package file says", "statement": "Parsing an RDF package adds to the graph exactly the triples of the RDF file, subPropertyOf cuba:activeRelationship for each active relationship, the default relationship and the reference style for each of its namespaces (with # appended if the IRI ends with neither # nor /), and makes each namespace available under its name; it is refused exactly if the identifier has a dot, the file cannot be read, keys are missing or unknown, or an active relationship is no object property. A name that is bound keeps its IRI for ever.", "quantifier": "all package files, RDF files, graphs and histories of bound namespaces", "why_tests_cant": "all documents and histories", "anchors": ["osp/core/ontology/parser.py:Parser._parse_rdf", "osp/core/ontology/parser.py:Parser._add_cuba_triples", "osp/core/ontology/parser.py:Parser._add_default_rel_triples", "osp/core/ontology/parser.py:Parser._add_reference_style_triples"]}
{"id": "C72", "title": "The installed namespaces survive a restart", "statement": "After storing the registry and loading it in a new process, every namespace name stands for the IRI it stood for, there are no other names, lookup by name gives the same namespaces and IRIs belong to the same namespaces.", "quantifier": "all histories of installed packages, all headers of the stored graph", "why_tests_cant": "all histories", "anchors": ["osp/core/ontology/namespace_registry.py:NamespaceRegistry.store", "osp/core/ontology/namespace_registry.py:NamespaceRegistry.load"]}
{"id": "C73", "title": "Searches by uid, class, attribute and relationship are exact", "statement": "find_cuds_object_by_uid finds the object exactly if the root reaches it; the searches by class, attribute and relationship return exactly the reachable objects of that class or a subclass, with that attribute value, with that relationship (or one below it), each once; they end on cyclic structures. The filters of a registry return exactly the registered objects with that class, value or relationship.", "quantifier": "all sessions reachable by API calls, all start objects and criteria", "why_tests_cant": "all graphs, cycles", "anchors": ["osp/core/utils/simple_search.py:find_cuds_object_by_uid", "osp/core/utils/simple_search.py:find_cuds_objects_by_oclass", "osp/core/utils/simple_search.py:find_cuds_objects_by_attribute", "osp/core/utils/simple_search.py:find_relationships", "osp/core/session/registry.py:Registry.filter_by_oclass", "osp/core/session/registry.py:Registry.filter_by_attribute", "osp/core/session/registry.py:Registry.filter_by_relationships"]}
{"id": "C74", "title": "Taking an object out of the structure removes exactly its links", "statement": "get_relationships_between returns exactly the relationships from subject to object, and those of the other direction are their inverses. remove_cuds_object never fails on a registered object and removes exactly the links from and to it, in both directions; its attributes, its class, the links among others and the registry are unchanged. A following prune makes the object disappear completely unless it is the root.", "quantifier": "all sessions reachable by API calls and all their objects", "why_tests_cant": "all graphs and link structures, self links included", "anchors": ["osp/core/utils/general.py:remove_cuds_object", "osp/core/utils/general.py:get_relationships_between", "osp/core/session/session.py:Session.prune"]}
{"id": "C75", "title": "Pretty printing shows the whole active structure once", "statement": "pretty_print ends on every structure, cyclic ones included. It prints the details of every object reachable over active relationships exactly once and every active link of these objects exactly once; an object marked as already printed was printed before. The links of an object are printed by relationship, class and name in alphabetical order, whatever the order of the sets. It raises (TypeError) exactly if an object has two related objects of the same class by the same relationship of which only one has a name.", "quantifier": "all sessions reachable by API calls, all root objects, all texts of entities", "why_tests_cant": "all graphs, cycles and sharing", "anchors": ["osp/core/utils/pretty_print.py:pretty_print", "osp/core/utils/pretty_print.py:_pp_subelements"]}
{"id": "C76", "title": "The drawing of a structure is faithful", "statement": "Cuds2dot draws one node for every object reachable from the root and one edge for every link between them, labelled with its relationship, and marks the root. Two objects are drawn as one node exactly if the first 8 and the last 3 digits of their uids agree; otherwise node names are unique and the edges between the nodes are exactly the links between the objects.", "quantifier": "all sessions reachable by API calls, all root objects, all uids", "why_tests_cant": "all graphs, cycles and sharing", "anchors": ["osp/core/utils/cuds2dot.py:Cuds2dot.render", "osp/core/utils/cuds2dot.py:Cuds2dot._add_directly_related", "osp/core/utils/cuds2dot.py:Cuds2dot.shorten_uid"]}
{"id": "C77", "title": "Converting an old ontology renames every entity consistently", "statement": "If yaml2camelcase converts a document, then the namespace and the requirements are in lower case, and in the ontology every entity name in capitals is replaced by one new name wherever it occurs, and nothing else is changed: underscores go away, letters after them are capitals, and the first letter is small exactly for relationships and attributes (an entity of cuba, of another namespace about which the user says so, or an entity with such a superclass and no class expression among its superclasses). The references to an entity of the ontology fit its definition. The user is asked at most once about an entity and only about entities of other namespaces.", "quantifier": "all YAML documents, all answers of the user, all recursion limits", "why_tests_cant": "all documents, all nestings and orders of questions", "anchors": ["osp/core/tools/yaml2camelcase.py:Yaml2CamelCaseConverter.convert", "osp/core/tools/yaml2camelcase.py:Yaml2CamelCaseConverter.convert_nested_doc", "osp/core/tools/yaml2camelcase.py:Yaml2CamelCaseConverter.get_first_letter_caps", "osp/core/tools/yaml2camelcase.py:Yaml2CamelCaseConverter.toCamelCase"]}
{"id": "C78", "title": "Converting an old ontology loses no entity and ends", "statement": "yaml2camelcase converts every document whose superclasses lead to entities of cuba or other namespaces, whatever the user answers. No entity is lost: different names stay different, and every entity is defined under its new name by its converted definition.", "quantifier": "all YAML documents, all answers of the user", "why_tests_cant": "all documents", "anchors": ["osp/core/tools/yaml2camelcase.py:Yaml2CamelCaseConverter.convert", "osp/core/tools/yaml2camelcase.py:Yaml2CamelCaseConverter.toCamelCase"]}
{"id": "C79", "title": "Changing the class of an object", "statement": "change_oclass gives an object without neighbours the new class and exactly the given attribute values, and changes nothing else in the session. For an object with neighbours it removes its own links and leaves those of the neighbours to it: afterwards the links of the session are complete in both directions exactly if the object had no neighbour but itself. If the values are refused, an object without neighbours does not change. A person of the dummy simulation that is linked to the wrapper only becomes a citizen of the city with links in both directions.", "quantifier": "all ontologies with inverses, all sessions whose links are complete, all objects, classes and values, including values that cannot be converted", "why_tests_cant": "all sessions and values", "anchors": ["osp/core/utils/wrapper_development.py:change_oclass", "osp/wrappers/simdummy/simdummy_session.py:SimDummySession._check_convert_to_inhabitant"]}
{"id": "C80", "title": "Recycling an object", "statement": "create_recycle with a new uid creates the object, or raises and changes nothing. With the uid of an existing object it gives that object the class and exactly the given values; with fix_neighbors (the default) all links from and to it are gone afterwards and all other links stay; without fix_neighbors the neighbours keep their links to it.", "quantifier": "all ontologies with inverses, all sessions whose links are complete, all objects and values, all orders in which the relationships of the object are enumerated", "why_tests_cant": "all sessions, values and enumeration orders of a Python set", "anchors": ["osp/core/utils/wrapper_development.py:create_recycle", "osp/core/utils/wrapper_development.py:change_oclass", "osp/core/cuds.py:Cuds.remove"]}
{"id": "C81", "title": "Credentials in the URI authenticate the user and go nowhere else", "statement": "For every valid ws or wss URI with a user name or password, the client connects to the same address without them, and the session at the server is constructed with exactly what compute_auth makes of these credentials and the answer to the handshake, if its class has an auth argument. Neither arguments of the user nor the configuration of the server can replace it. Without credentials the URI is used as given.", "quantifier": "all valid addresses (RFC 3986 characters), all credentials, all session classes, configurations and answers to the handshake", "why_tests_cant": "all URIs and session classes", "anchors": ["osp/core/session/transport/transport_session_client.py:TransportSessionClient.__init__", "osp/core/session/transport/transport_session_client.py:TransportSessionClient._parse_uri", "osp/core/session/transport/transport_session_server.py:TransportSessionServer._init_session", "osp/core/session/wrapper_session.py:WrapperSession.compute_auth"]}
{"id": "C82", "title": "A client session is initialised exactly once and loses no object", "statement": "A client session sends one handshake before anything else. The first object it gets, and nothing else, initialises the session at the server, once, with that object as root. Every other object is pending from when it is stored until the next call that transfers the changes, which sends all pending objects. Calling a public method of the session class executes this method once on the session of this connection; other names raise AttributeError and send nothing. If the server could not open a session, the first object is refused with RuntimeError and so is every later call and load: a new client session is needed.", "quantifier": "all histories of storing, calling and loading, all session classes, server configurations and answers", "why_tests_cant": "histories with failures at any point", "anchors": ["osp/core/session/transport/transport_session_client.py:TransportSessionClient._store", "osp/core/session/transport/transport_session_client.py:TransportSessionClient._send", "osp/core/session/transport/transport_session_client.py:TransportSessionClient.__getattr__", "osp/core/session/transport/transport_session_server.py:TransportSessionServer.handle_request"]}
{"id": "C83", "title": "The drawing of an ontology is complete and has no doubles", "statement": "Ontology2Dot ends on every ontology, cyclic ones included. It draws a node for every entity of the requested namespaces and for everything these call for (superclasses, named inverses), exactly once, coloured exactly if its namespace is requested and in the cluster of its namespace if grouping is asked for; an is_a edge for every direct superclass of a drawn entity, exactly once; an inverse edge for every pair of drawn inverse relationships with names of their own, exactly once, and inverse edges connect nothing else than a relationship and its inverse.", "quantifier": "all ontologies, all lists of namespaces, all enumeration orders", "why_tests_cant": "all graphs, cycles and multiple inheritance", "anchors": ["osp/core/tools/ontology2dot.py:Ontology2Dot.render", "osp/core/tools/ontology2dot.py:Ontology2Dot._add_entity", "osp/core/tools/ontology2dot.py:Ontology2Dot._add_relationship"]}
{"id": "C84", "title": "The dummy simulation ages everyone and moves one person in each step", "statement": "In a wrapper with one city, whose persons are linked to the wrapper only, the simulation takes in exactly the added persons that are parts of the wrapper, ordered by name (equal names in the order of adding). After runs with together N steps every person, once loaded, is N years older than at the start, and the first N persons are citizens, inhabitants of the city and no longer parts of the wrapper; nothing else in the session changes, whatever is run and loaded in which order. After the first run a session with pending changes cannot run any more: every attempt raises RuntimeError and changes nothing.", "quantifier": "all sessions of this shape, all numbers of persons and steps, all histories of runs and loads, all pending changes", "why_tests_cant": "arbitrary histories of runs and lazy loads", "anchors": ["osp/wrappers/simdummy/simdummy_session.py:SimDummySession", "osp/wrappers/simdummy/dummy_syntactic_layer.py:DummySyntacticLayer", "osp/core/session/sim_wrapper_session.py:SimWrapperSession.run"]}
{"id": "C85", "title": "What a session commits to the SQL database is what later sessions load", "statement": "Start with an empty database. Let any number of sessions, one after the other, each with its own wrapper, commit buffers (objects with types, values and relationships), load objects and load by class. No call raises. After a commit the tables contain, about every object in the buffers, nothing if it was deleted, exactly its triples if it was updated, its triples in addition to what was stored if it was added, and about all others what they contained before. A new session with a new wrapper has after connecting exactly the wrapper and its stored children; loading any object gives exactly the last committed triples with the old wrapper replaced by the new one, or None if nothing is stored; loading by class gives, each once, exactly the objects with this stored type.", "quantifier": "all histories of sessions, commits and loads; all buffers whose values do not look like object IRIs and whose predicates are used as the ontology says; all new wrappers whose uid is not that of an object", "why_tests_cant": "composition of buffers, root substitution, normalised tables and lazy loading over arbitrary histories", "anchors": ["osp/core/session/db/triplestore_wrapper_session.py:TripleStoreWrapperSession", "osp/core/session/db/sql_wrapper_session.py:SqlWrapperSession._load_triples_for_iri", "osp/core/session/db/db_wrapper_session.py:DbWrapperSession.commit", "osp/core/session/db/db_wrapper_session.py:DbWrapperSession._store", "osp/core/utils/wrapper_development.py:create_from_triples"]}
{"id": "C86", "title": "The exported RDF graph is complete and can be imported again", "statement": "get_rdf_graph(session, skip) returns exactly the triples of the session and of the ontology, with skip without the declarations of the datatypes of the namespace cuba and the statements that an attribute has one of them as range; no triple of an object is left out. Without a session the core session is exported, and an argument that is no session raises a TypeError. Importing the export into any session gives it exactly the graph of the exported session. For a session on a SQL database the export first loads everything below the wrapper, however deep and whatever cycles there are: of each of these objects it has exactly the triples of the session, or, if it had not been loaded, exactly what is stored; nothing that is not stored is added, and what is stored does not change. If an object below the wrapper is related to an object that is nowhere, the export raises an AttributeError. After any history of sessions, a new session exports exactly what was committed.", "quantifier": "all ontologies, graphs, databases and histories of sessions; all orders in which children are visited", "why_tests_cant": "a graph traversal of unbounded depth that loads from the database while it iterates, over any stored graph with cycles and shared children", "anchors": ["osp/core/utils/general.py:get_rdf_graph", "osp/core/utils/general.py:get_custom_datatypes", "osp/core/utils/general.py:get_custom_datatype_triples", "osp/core/session/wrapper_session.py:WrapperSession._get_full_graph", "osp/core/session/core_session.py:CoreSession._get_full_graph", "osp/core/session/session.py:Session._rdf_import", "osp/core/utils/simple_search.py:find_cuds_object"]}
{"id": "C87", "title": "The dictionaries of neighbours behave like dictionaries over the graph", "statement": "Reading the entry of a neighbour gives exactly its classes, and a KeyError for an object that is no neighbour; setting an entry adds the neighbour and its classes and changes nothing else; deleting one removes that link alone; assigning a dict to a relationship makes its keys the neighbours, all of them and no others; iteration, items and values yield each neighbour exactly once; comparison with a dict holds exactly if the items are the same. Keys and values of a wrong type raise a ValueError without effect. Each operation tells the session about the reading first, so that it works on what the session then has, and each change about the update afterwards. Connecting and disconnecting objects through the dictionaries has exactly the effect on the graph that add and remove document.", "quantifier": "all graphs, objects, relationships, dicts of any size and content, all pending refreshes of the session, with and without session", "why_tests_cant": "every dict, every graph and every refresh that can happen in the middle of an operation; a failed assignment at every position", "anchors": ["osp/core/neighbor_dict.py:NeighborDict", "osp/core/neighbor_dict.py:NeighborDictRel", "osp/core/neighbor_dict.py:NeighborDictTarget", "osp/core/cuds.py:Cuds._add_direct", "osp/core/cuds.py:Cuds._remove_direct"]}
{"id": "C88", "title": "Equality and hashing of objects, entities and namespaces are consistent", "statement": "Objects compare equal exactly if they have the same uid and the same class at that moment, so objects of one session exactly if they have the same uid; entities exactly if they have the same IRI; namespaces exactly if they have the same name, IRI and registry. Equality is an equivalence relation, equal objects have the same hash, and the hash of an object never changes. So Python sets of objects of one session behave like sets of uids for every hash function, and what the registry computes with such sets contains every reachable object exactly once. The default relationship of a namespace is determined once and does not change afterwards.", "quantifier": "all states of all graphs, all objects, entities and namespaces, all hash functions and all collisions", "why_tests_cant": "hash collisions and objects compared across sessions at every moment; a test has one hash function and one state", "anchors": ["osp/core/cuds.py:Cuds.__eq__", "osp/core/cuds.py:Cuds.__hash__", "osp/core/ontology/entity.py:OntologyEntity.__eq__", "osp/core/ontology/namespace.py:OntologyNamespace.__eq__", "osp/core/ontology/namespace.py:OntologyNamespace.get_default_rel", "osp/core/session/registry.py:Registry.get_subtree"]}
{"id": "C89", "title": "SQL statements of the triple store mean what the pattern says", "statement": "For every pattern of triples and every database content, the SELECT statement the library builds returns exactly one row for every stored row that meets the pattern, with the uid of the subject, the entity and the object, whatever the order in which Python iterates sets of conditions and also for vectors, which are spread over several columns. A deletion deletes exactly the rows that meet the pattern; without a condition it empties the table. An insertion inserts one row whose columns hold exactly the given values. Every value is passed as a parameter, no parameter is used twice, and the conditions of a query only grow. An alias is used once in a query.", "quantifier": "all patterns, all database contents, all orders of sets, all datatypes and shapes of vectors, all conditions", "why_tests_cant": "set order and joins of arbitrary tables; a test has one order and one database", "anchors": ["osp/core/session/db/sql_util.py:SqlQuery", "osp/core/session/db/sql_util.py:expand_vector_condition", "osp/core/session/db/sql_wrapper_session.py:SqlWrapperSession._construct_query", "osp/core/session/db/sql_wrapper_session.py:SqlWrapperSession._get_conditions", "osp/core/session/db/sql_wrapper_session.py:SqlWrapperSession._construct_remove_condition", "osp/wrappers/sqlite/sqlite_session.py:SqliteSession._db_select", "osp/wrappers/sqlite/sqlite_session.py:SqliteSession._db_insert"]}
{"id": "C90", "title": "Attributes hold values of their declared datatype", "statement": "Whatever value a user sets on an attribute or passes to the constructor, the attribute afterwards holds exactly one value, it has the declared datatype (BOOL, INT, FLOAT, STRING, STRING:n, UUID), reading gives this value, other attributes are untouched, and a value that cannot be converted is refused and changes nothing. Values of the datatype are kept as they are, converting twice is converting once, the basic Python form and the text of a value convert back to the value, a text of limited length is never cut but refused. Values come back unchanged from an exported file or a message and from the sqlite database.", "quantifier": "all values of all Python types, all datatypes but vectors, all objects", "why_tests_cant": "the set of values and datatypes is infinite; conversions differ per type pair", "anchors": ["osp/core/ontology/datatypes.py:convert_to", "osp/core/ontology/datatypes.py:convert_from", "osp/core/ontology/datatypes.py:to_uuid", "osp/core/ontology/datatypes.py:to_string", "osp/core/ontology/datatypes.py:RDF_DATATYPES", "osp/core/cuds.py:Cuds.__setattr__", "osp/core/cuds.py:Cuds.__getattr__", "osp/core/cuds.py:Cuds.__init__", "osp/core/session/db/sql_util.py:convert_values", "osp/core/session/db/sql_wrapper_session.py:SqlWrapperSession._get_values"]}
{"id": "C91", "title": "Opening an SQL session creates the tables it needs, clearing empties them", "statement": "Opening a session on any database creates exactly the tables and indexes that are missing: the five fixed tables and one table for each standard datatype and each datatype of the ontologies, with a typed column for each element of a vector; tables that exist are not touched, opening again changes nothing, the order of the datatypes does not matter. Foreign keys refer to primary keys of tables created before. Clearing the database leaves the root alone in the session and empties all tables of the session and no other table, in an order that respects foreign keys; if it fails, the database is unchanged.", "quantifier": "all databases, all sets of datatypes and orders, all shapes of vectors, all reachable sessions, all failures", "why_tests_cant": "databases, ontologies and vector shapes are unbounded; tests use one ontology and a new database", "anchors": ["osp/core/session/db/sql_wrapper_session.py:SqlWrapperSession._initialize", "osp/core/session/db/sql_wrapper_session.py:SqlWrapperSession._clear_database", "osp/core/session/db/sql_wrapper_session.py:SqlWrapperSession._do_db_create", "osp/core/session/db/sql_wrapper_session.py:SqlWrapperSession._default_create", "osp/wrappers/sqlite/sqlite_session.py:SqliteSession._db_create", "osp/wrappers/sqlite/sqlite_session.py:SqliteSession._to_sqlite_datatype", "osp/core/utils/general.py:get_custom_datatypes", "osp/core/ontology/cuba.py:rdflib_cuba"]}
{"id": "C92", "title": "A database session used through a client behaves like the session itself", "statement": "For every history of creations, modifications, deletions, reads, loads, queries by class, expirations, refreshs and commits on a database session behind a server: each call returns or raises what it would, the client shows exactly the objects and triples the user put there or the database contains, and after every commit whose request arrived the database contains exactly what the client shows and nothing is left to be committed, even if the answer is lost; a commit that fails in the backend changes nothing and can be repeated. The same history without a client gives the same objects and the same stored data.", "quantifier": "all databases, all wrappers, all histories of calls, all failures of the backend and lost answers", "why_tests_cant": "the number of histories and the interleavings of client buffers, server buffers, expiry and database are unbounded; tests use a handful of scripts", "anchors": ["osp/core/session/transport/transport_session_client.py:TransportSessionClient._store", "osp/core/session/transport/transport_session_client.py:TransportSessionClient._send", "osp/core/session/transport/transport_session_client.py:TransportSessionClient._receive", "osp/core/session/transport/transport_session_client.py:TransportSessionClient._load_from_backend", "osp/core/session/transport/transport_session_server.py:TransportSessionServer._run_command", "osp/core/session/transport/transport_session_server.py:TransportSessionServer._load_from_session", "osp/core/session/transport/transport_session_server.py:TransportSessionServer._init_session", "osp/core/session/transport/transport_utils.py:serialize_buffers", "osp/core/session/transport/transport_utils.py:deserialize_buffers", "osp/core/session/db/db_wrapper_session.py:DbWrapperSession.commit"]}
{"id": "C93", "title": "Classes have the attributes that the YAML ontology lists for them and their superclasses", "statement": "After installing a YAML ontology, every class (of this ontology or of one installed before) has exactly the attributes that it or one of its superclasses lists, each once, in whatever order sets are iterated. Calling the class without arguments raises TypeError exactly if it or a superclass lists an attribute without default; otherwise the object has a value for the attributes with a default, which is one that is listed; if all classes that list the attribute give the same default it is this one.", "quantifier": "all ontology documents, all registries of ontologies installed before with orderly restrictions, all classes, all iteration orders of sets", "why_tests_cant": "unbounded inheritance graphs over several ontologies and all set orders", "anchors": ["osp/core/ontology/oclass.py:OntologyClass.attributes", "osp/core/ontology/oclass.py:OntologyClass._get_attributes", "osp/core/ontology/oclass.py:OntologyClass._get_default", "osp/core/ontology/oclass.py:OntologyClass._get_attributes_values", "osp/core/ontology/yml/yml_parser.py:YmlParser._add_attributes", "osp/core/ontology/entity.py:OntologyEntity.superclasses"]}
{"id": "C94", "title": "Every sequence of pico commands leaves a consistent installation", "statement": "After any sequence of pico commands, each a process of its own, the graph that the next process loads is exactly what parsing the installed packages gives, in an order that respects their requirements. A command that reports an error leaves the installation directory as it was; install adds exactly the packages not yet installed, install --overwrite replaces exactly the named ones, uninstall removes exactly the named ones, uninstall all always succeeds and leaves CUBA only, list prints exactly the installed packages and namespaces. (Package names without dots and slashes, RDF packages without capital letters and not called graph.)", "quantifier": "all sequences of commands, all package files (which may change between commands), all requirement graphs, all outcomes of parsing, all orders of directories and sets", "why_tests_cant": "unbounded command histories with failures in between; the state passes through the file system between processes", "anchors": ["osp/core/pico.py:install_from_terminal", "osp/core/ontology/installation.py:OntologyInstallationManager._install", "osp/core/ontology/installation.py:OntologyInstallationManager.get_installed_packages", "osp/core/ontology/namespace_registry.py:NamespaceRegistry.load", "osp/core/ontology/namespace_registry.py:NamespaceRegistry.store"]}
{"id": "C95", "title": "Migrating an old installation keeps every ontology", "statement": "When osp-core is imported and finds the installation of an old version, all its ontologies except CUBA are installed again, exactly these; the result is a consistent installation, and later processes find it and do not migrate again. No ontology is lost, also if the migration fails.", "quantifier": "all old installations (files, names, requirement graphs), all outcomes of parsing and of moving files, the points at which the process is killed while moving", "why_tests_cant": "it runs once, on data of an old version; failures at every point", "anchors": ["osp/core/ontology/installation.py:pico_migrate", "osp/core/ontology/namespace_registry.py:NamespaceRegistry.load", "osp/core/namespaces.py"]}
{"id": "C96", "title": "Namespaces are found by name in every spelling", "statement": "After the namespaces of the graph were read, asking for a namespace by name finds the one bound (last) under this name, whatever the spelling in upper and lower case; subscript, attributes of the registry and of the modules osp.core.namespaces and osp.core (for names not defined there), get with a fallback and the test with in all agree; a name that is not bound gives KeyError, AttributeError, the fallback or False. Iterating gives every namespace with a non-empty name exactly once.", "quantifier": "all bindings of prefixes, all names and spellings", "why_tests_cant": "all names and all histories of bindings", "anchors": ["osp/core/ontology/namespace_registry.py:NamespaceRegistry.__iter__", "osp/core/ontology/namespace_registry.py:NamespaceRegistry.__getattr__", "osp/core/ontology/namespace_registry.py:NamespaceRegistry.get", "osp/core/ontology/namespace_registry.py:NamespaceRegistry.update_namespaces", "osp/core/namespaces.py:__getattr__", "osp/core/__init__.py:__getattr__"]}
{"id": "C97", "title": "Sessions that share a database overwrite each other only object by object", "statement": "When several sessions work on the same database, in any order of their calls: nobody sees what another session has not committed; a session shows, for an object it has not changed itself, only contents that were stored, and after expire or its own commit what is stored at the moment of the read; and what is stored for an object is always what the last successful commit wrote whose session had changed this object.", "quantifier": "all interleavings of calls of any number of sessions, with failing commits", "why_tests_cant": "schedules of several sessions", "anchors": ["osp/core/session/db/db_wrapper_session.py:DbWrapperSession.commit", "osp/core/session/wrapper_session.py:WrapperSession.load", "osp/core/session/wrapper_session.py:WrapperSession.expire_all", "osp/core/session/wrapper_session.py:WrapperSession.refresh", "osp/core/session/db/triplestore_wrapper_session.py:TripleStoreWrapperSession._apply_updated"]}
{"id": "C98", "title": "A message carries exactly the files of its objects, each at most once", "statement": "The files sent with a request or an answer are exactly those of the file objects among the added objects, the updated objects and the arguments or results, however deeply nested, and never those of deleted objects. A client sends a file that is not yet in its own directory, at most once per message however often its object occurs in it. The fingerprints a client reports when it connects are exactly the hashes of the whole contents of the regular files of its directory, so a file it has under the same name with the same content is not sent to it.", "quantifier": "all nested arguments, buffers, file systems, paths, directory listings and file contents of any length", "why_tests_cant": "unbounded nesting, sizes and repetitions", "anchors": ["osp/core/session/transport/transport_utils.py:get_file_cuds", "osp/core/session/transport/transport_utils.py:serialize_buffers", "osp/core/session/transport/transport_utils.py:deserialize_buffers", "osp/core/session/transport/transport_utils.py:move_files", "osp/core/session/transport/transport_utils.py:get_hash", "osp/core/session/transport/transport_utils.py:get_hash_dir"]}
{"id": "C99", "title": "Several clients in front of one database", "statement": "However the calls of any number of clients of one server are interleaved: a call changes what its own client shows and what is stored exactly as specified and nothing of what the other clients show; only executed commits change what is stored, each only for the objects its client changed since its last commit, and what it stores for an object it modified is exactly what the client shows, whatever the others stored before (the last commit wins); a client that expired an object, or committed, and has not changed it since reads what is stored at that moment, including all commits of the others; otherwise it sees what it showed before or what is stored now, never anything else.", "quantifier": "all stored databases, numbers of clients, interleaved histories of connecting, creating, modifying, deleting, reading, loading, expiring, committing, failing commits and lost answers", "why_tests_cant": "unbounded interleavings", "anchors": ["osp/core/session/transport/transport_session_server.py:TransportSessionServer", "osp/core/session/transport/transport_session_client.py:TransportSessionClient", "osp/core/session/db/db_wrapper_session.py:DbWrapperSession.commit", "osp/core/session/wrapper_session.py:WrapperSession.expire"]}
{"id": "C100", "title": "Connections side by side", "statement": "However the event loop mixes the frames and the coroutines of any number of connections, every request is served at one moment, as a whole: there is an order of the requests, consistent with real time, such that serving them one after the other leaves the same sessions and databases and gives the same answers. Each request is served with exactly the command, data and files its own connection sent for it; the requests of a connection are served in the order sent; what another connection sends, well-formed or not, changes nothing of a connection and cannot end it; every client whose requests are complete is served and gets exactly the answers to its own requests in order, provided no file is changed while it is being sent to another client.", "quantifier": "all backends, numbers of connections, frames (well-formed or not), schedules of arrivals, closings and turns of the coroutines", "why_tests_cant": "unbounded interleavings of coroutines", "anchors": ["osp/core/session/transport/communication_engine.py:CommunicationEngineServer._serve", "osp/core/session/transport/communication_engine.py:CommunicationEngineServer._decode", "osp/core/session/transport/communication_utils.py:receive_files", "osp/core/session/transport/communication_utils.py:encode_files", "osp/core/session/transport/communication_utils.py:join_message"]}
{"id": "C101", "title": "Attributes by name", "statement": "obj.name gives the value last set under either spelling of the attribute (as in the ontology, or in lower case), else the one given to the constructor or its default, converted to the datatype, whatever else was done to the object by any name; an attribute without value and an unknown name are an AttributeError, except that a wrapper gives the attribute of its session of that name, if its own has no value; a name that stands for no attribute cannot be set, nor can uid, session, oclass or a method be replaced by setting that name; setting tells the session about a read, then an update, and changes no other attribute; a name with an underscore is a Python attribute of the object and never reaches the graph; del never removes an attribute. This holds for names that are no member of the class Cuds, and for classes in which no two attributes share a spelling.", "quantifier": "all classes, attributes, values, sessions, keyword arguments and histories of reading, setting and deleting", "why_tests_cant": "all histories and names", "anchors": ["osp/core/cuds.py:Cuds.__getattr__", "osp/core/cuds.py:Cuds.__setattr__", "osp/core/cuds.py:Cuds.__init__", "osp/core/ontology/oclass.py:OntologyClass.__call__", "osp/core/ontology/oclass.py:OntologyClass.get_attribute_by_argname", "osp/core/ontology/oclass.py:OntologyClass._get_attributes_values"]}
{"id": "C102", "title": "Links stay mutual when another session changes the database", "statement": "After another session has changed the database, a session shows no link from one side only: whenever an object is loaded again, every other object whose link with it appeared or vanished (it was deleted, linked, unlinked) is expired, so it is loaded before it is shown again. So two objects that are not expired agree about the links between them, although one may be shown as it was before the change and the other as it is after it, and no object that is not expired shows a link to an object found deleted.", "quantifier": "all sessions and databases in which links are mutual, all changes of the database, and all histories of reading, refreshing, expiring and loading", "why_tests_cant": "all histories of reads and reloads over all changes", "anchors": ["osp/core/session/wrapper_session.py:WrapperSession.load", "osp/core/session/wrapper_session.py:WrapperSession._expire_neighour_diff", "osp/core/utils/wrapper_development.py:get_neighbor_diff", "osp/core/session/db/db_wrapper_session.py:DbWrapperSession._load_from_backend"]}
{"id": "C103", "title": "Nested calls of branch build exactly the tree they show", "statement": "An expression of nested calls of branch over objects at hand and new objects gives its innermost first argument, and afterwards the session has exactly the new objects with their class and attributes and the links that the calls ask for, in both directions, besides what it had. It succeeds exactly if every call has a relationship (its own or the default one) and no link is there from the start or asked for twice, in one direction or the other; so always if each object occurs once and the old ones are not linked to each other. If it raises, an initial part of the objects and links is there and nothing else: a ValueError at the first link that is there already, a TypeError at a call without relationship.", "quantifier": "all expressions of any depth and width, all sessions and ontologies with involutive inverses", "why_tests_cant": "all nested expressions over all sessions", "anchors": ["osp/core/utils/general.py:branch", "osp/core/cuds.py:Cuds.add", "osp/core/ontology/oclass.py:OntologyClass.__call__"]}
{"id": "C104", "title": "An iteration that is interrupted by other calls", "statement": "The result of load, and Cuds.iter, is consumed one object at a time; between two steps the user may change objects, commit, read, start other iterations or give this one up, and somebody else may change the database. Whatever happens in between, the n-th object given is the n-th asked for (or None); an object that was absent or expired when the iteration began is shown as stored at the moment it is given, every other object is given as it is, and no other object changes; pending changes stay on the list and the database is not written. Consumed without interruption it is load consumed at once. No step throws away a change the user has made.", "quantifier": "all histories of calls, of iterations begun, advanced and abandoned, and of foreign changes of the database", "why_tests_cant": "all interleavings of any number of iterations with all other calls", "anchors": ["osp/core/session/wrapper_session.py:WrapperSession.load", "osp/core/session/buffers.py:EngineContextIterator.__next__", "osp/core/session/result.py:QueryResult", "osp/core/cuds.py:Cuds.iter", "osp/core/cuds.py:Cuds._load_cuds_objects"]}
{"id": "C105", "title": "Converting an ontology file in place keeps the original", "statement": "When yaml2camelcase overwrites the file it has read, the original text is not lost: it is copied first to the first of the names x.orig, x.orig[0], x.orig[1], ... that does not exist, the file is touched only after the copy is complete, and no other file is changed. So wherever the tool is interrupted, by an exception while it writes, a full disc or the end of the process, the original is in the file or in the backup, and after any number of conversions the first text and all backups are still there. If the file cannot be read or converted, or the backup cannot be created, nothing is changed. Looking for a free name ends. With another output only that file is written.", "quantifier": "all contents of the file system, all documents, all points of interruption, all histories of conversions", "why_tests_cant": "all crash points and all histories of conversions cannot be enumerated by tests", "anchors": ["osp/core/tools/yaml2camelcase.py:Yaml2CamelCaseConverter.store", "osp/core/tools/yaml2camelcase.py:run_from_terminal"]}
{"id": "C106", "title": "The database fails in the middle of a call", "statement": "If the database fails while objects are loaded - by load, refresh, a query by class, or because an object is read or about to be changed -, the call raises; the database, the list of pending changes and the wrapper are as before, every object is as it was or as it is stored, objects with pending changes keep them. If the database works again, repeating the call has the effect it would have had: what the session did not have is loaded, what had expired is reloaded before it is shown or changed. A failure before or after the requests a call makes does not affect it.", "quantifier": "all histories of calls, any number of failures at any request, all changes by others in between", "why_tests_cant": "all histories and all points of failure cannot be enumerated by tests", "anchors": ["osp/core/session/wrapper_session.py:WrapperSession.load", "osp/core/session/wrapper_session.py:WrapperSession.refresh", "osp/core/session/wrapper_session.py:WrapperSession._notify_read", "osp/core/session/db/db_wrapper_session.py:DbWrapperSession._store", "osp/core/session/db/triplestore_wrapper_session.py:TripleStoreWrapperSession._load_from_backend"]}
{"id": "C107", "title": "A database that is down is seen through a client as refused calls that leave no trace", "statement": "If a session on a database is used through a client and the database is down during some of the calls: a call that needs no data from the database works as always; every other call either works as always or raises, and one that raises has no effect - the session shows the same objects and triples, the pending changes are kept, the database is unchanged. When the database is up again every call returns what it would have returned without the refused calls, and the first commit stores everything the session shows.", "quantifier": "all databases, all wrappers, all histories of calls, all subsets of the calls during which the database is down", "why_tests_cant": "outages can fall on any call of any history, and their effect may show only much later; tests have no failing database behind a server", "anchors": ["osp/core/session/wrapper_session.py:WrapperSession.load", "osp/core/session/wrapper_session.py:WrapperSession.refresh", "osp/core/session/transport/transport_session_server.py:TransportSessionServer.handle_request", "osp/core/session/transport/transport_session_server.py:TransportSessionServer._load_from_session", "osp/core/session/transport/transport_session_client.py:TransportSessionClient._receive", "osp/core/session/transport/transport_session_client.py:TransportSessionClient._load_from_backend", "osp/core/session/db/db_wrapper_session.py:DbWrapperSession.commit"]}
{"id": "C108", "title": "A copy of an object (copy.deepcopy, pickle) is a snapshot, and adding it back restores the object", "statement": "copy.deepcopy(obj) and pickle.loads(pickle.dumps(obj)) give a copy that is equal to obj and shows the class, the attribute values and the links obj has at that moment, and the class of every neighbour; a copy of a copy shows the same. Setting attributes of the copy changes nothing but the copy; methods that follow or change links raise on a copy. Adding the copy to an object of any session puts obj there with the class and attribute values it had when the copy was made and links it; updating with the copy restores obj, whatever was done in between, and leaves the attribute values of all other objects as they are.", "quantifier": "all reachable sessions, all objects, all histories between making and adding the copy, all orders of iteration", "why_tests_cant": "what the copy shows and what adding it does depends on the history before the copy and on everything that happened in between; the tests copy one object and compare it at once", "anchors": ["osp/core/cuds.py:Cuds.__getstate__", "osp/core/cuds.py:Cuds.__setstate__", "osp/core/cuds.py:Cuds._recursive_store", "osp/core/cuds.py:Cuds.get_triples", "osp/core/cuds.py:Cuds.add", "osp/core/cuds.py:Cuds.update"]}
{"id": "C109", "title": "A pico command that is killed loses no installed package, and repeating it completes it", "statement": "Whenever the process of a pico command (install, install --overwrite, uninstall) is killed - between two operations on the installation directory or while a file is written - every package that was installed and that the command does not replace or remove is still installed with its document and its RDF file unchanged; nothing is there that the command does not name; a command that is refused has changed nothing at any moment; and repeating a killed command has the effect the command would have had.", "quantifier": "all installation directories in order, all commands, all crash points, any content of the file that was being written", "why_tests_cant": "the moment at which a process is killed is arbitrary; the tests run every command to its end", "anchors": ["osp/core/ontology/installation.py:OntologyInstallationManager._install", "osp/core/ontology/installation.py:OntologyInstallationManager._get_new_packages", "osp/core/ontology/parser.py:Parser.store", "osp/core/ontology/namespace_registry.py:NamespaceRegistry.store"]}
