{"id": "C01", "title": "number_of_collections is the smallest prime that fits", "statement": "number_of_collections(capacity, m) always terminates for capacity >= 0 and m >= 1 and returns the smallest number n that is prime (or 0/1 in the degenerate cases needing 0/1 collections) with n * m >= capacity.", "quantifier": "every capacity >= 0 and every positive collection size", "why_tests_cant": "Minimality, primality and termination are claims about all integers; a test checks a few capacities.", "anchors": ["citrine/storage/utils.py:is_prime", "citrine/storage/utils.py:get_primes", "citrine/storage/utils.py:number_of_collections"]}
{"id": "C02", "title": "is_prime decides primality", "statement": "For every integer n >= 2, is_prime(n) is True exactly when n is prime.", "quantifier": "every n >= 2", "why_tests_cant": "Trial division up to the square root has to be right at every square and near-square.", "anchors": ["citrine/storage/utils.py:is_prime"]}
{"id": "C03", "title": "A new container holds at least what was asked for", "statement": "Container.new(capacity, collection_max_size) with capacity >= 1 and collection_max_size >= 1 never raises, yields an empty container whose capacity is at least the requested one, whose number of collections is the recommended prime number, and, if the capacity is below collection_max_size, whose capacity is exactly the request; strict is what was asked.", "quantifier": "every capacity >= 1, collection_max_size >= 1 and strict flag", "why_tests_cant": "Arithmetic on all sizes; a unit test samples a handful.", "anchors": ["citrine/storage/container.py:Container.new", "citrine/storage/group.py:Group.new", "citrine/storage/utils.py:number_of_collections"]}
{"id": "C04", "title": "Every collection of a group is reachable when the number of collections is prime", "statement": "Every id is routed to exactly one existing collection, always the same one, and when the number of collections is 1 or prime (the numbers Container.new and resize pick) every collection is the target of some id; for composite numbers this can fail.", "quantifier": "every id string, every number of collections", "why_tests_cant": "Needs number theory on all ids and all primes.", "anchors": ["citrine/storage/group.py:get_group_index", "citrine/storage/group.py:groupfn", "citrine/storage/utils.py:number_of_collections"]}
{"id": "C05", "title": "A collection behaves as an ordered map", "statement": "After any sequence of insert/update/pop/popitem/setdefault/clear calls on a Collection, get/has_key/size/keys/items answer as a plain map on which the same calls were applied (insert never overwrites and returns 1/0 for new/existing; calls that raise change nothing), and every call returns or raises what that map prescribes.", "quantifier": "every finite history of calls, keys and values", "why_tests_cant": "A refinement over unbounded histories.", "anchors": ["citrine/storage/collection.py:Collection"]}
{"id": "C06", "title": "Collection views are sorted and complete", "statement": "keys(), items() and iterkeys/iteritems(min, max) list, in strictly increasing key order and without repetition, exactly the stored keys that lie within the inclusive bounds; values() and itervalues(min, max) list their objects, position by position.", "quantifier": "every reachable collection, every pair of optional bounds", "why_tests_cant": "Order/completeness for every content and bound.", "anchors": ["citrine/storage/collection.py:Collection.keys", "citrine/storage/collection.py:Collection.iterkeys", "citrine/storage/collection.py:Collection.iteritems", "citrine/storage/collection.py:Collection.items", "citrine/storage/collection.py:Collection.values", "citrine/storage/collection.py:Collection.itervalues"]}
{"id": "C07", "title": "minKey and maxKey of a collection are the extreme keys", "statement": "minKey(min)/maxKey(max) return the least/greatest stored key not below/above the bound and raise ValueError exactly when there is none; popitem removes and returns the item with the least key and raises KeyError only on an empty collection.", "quantifier": "every reachable collection and every optional bound", "why_tests_cant": "Extremality over all contents.", "anchors": ["citrine/storage/collection.py:Collection.minKey", "citrine/storage/collection.py:Collection.maxKey", "citrine/storage/collection.py:Collection.popitem"]}
{"id": "C08", "title": "A strict collection never exceeds max_size", "statement": "Whatever calls are made on a strict Collection that starts within its limit, the number of stored items never exceeds max_size, and a call that would exceed it raises CollectionCapacityError and changes nothing.", "quantifier": "every history of calls in strict mode", "why_tests_cant": "The limit must hold after every prefix of every history.", "anchors": ["citrine/storage/collection.py:Collection.insert", "citrine/storage/collection.py:Collection.update", "citrine/storage/collection.py:Collection.setdefault"]}
{"id": "C09", "title": "Re-writing an existing key never raises a capacity error", "statement": "Inserting or updating a key that is already stored does not need room, so it never raises a capacity error even when the strict collection (or group, or container) is full.", "quantifier": "every full strict collection/group/container and every stored key", "why_tests_cant": "Holds or fails only at the boundary in each layer.", "anchors": ["citrine/storage/collection.py:Collection.insert", "citrine/storage/collection.py:Collection.update", "citrine/storage/group.py:Group.insert", "citrine/storage/container.py:Container.write"]}
{"id": "C10", "title": "status reflects usage", "statement": "The status of a collection is the largest level of 0/60/70/80/90 not above its usage percentage rounded up: it is monotone in the number of items, antitone in max_size, and a collection is CRITICAL exactly when usage is above 89%. A group's status is the worst status of its collections.", "quantifier": "every size and max_size", "why_tests_cant": "All integer ratios, including the rounding boundary.", "anchors": ["citrine/storage/collection.py:CollectionMeta.status", "citrine/storage/group.py:GroupMeta.status"]}
{"id": "C11", "title": "A group behaves as one map whatever the number of collections", "statement": "After any sequence of insert/update/pop/setdefault/clear calls on a Group with any number of collections of any sizes (non-strict), get/has_key/size/keys/items answer as a single plain map on which the same calls were applied, with the prescribed results and errors.", "quantifier": "every history, every number of collections, all ids and values", "why_tests_cant": "Refinement over unbounded histories and every layout.", "anchors": ["citrine/storage/group.py:Group"]}
{"id": "C12", "title": "Size bookkeeping of groups and containers is exact", "statement": "A group's size equals the number of distinct ids it holds, its max_size the sum over its collections; a container's size/max_size are the sums over its groups, used/capacity those of its primary group.", "quantifier": "every reachable group/container", "why_tests_cant": "Depends on no id ever being stored in two collections of a group, in every history.", "anchors": ["citrine/storage/group.py:GroupMeta", "citrine/storage/container.py:ContainerMeta"]}
{"id": "C13", "title": "Group.iterkeys merges all collections in key order", "statement": "Group.iterkeys(min, max) yields every stored key within the inclusive bounds exactly once, in increasing order.", "quantifier": "every reachable group, number of collections, and bounds", "why_tests_cant": "A k-way merge must be right for every distribution of the keys.", "anchors": ["citrine/storage/group.py:Group.iterkeys"]}
{"id": "C14", "title": "Group.iteritems merges all collections in key order", "statement": "Group.iteritems(min, max) yields every stored key/value pair within the inclusive key bounds exactly once, in increasing key order.", "quantifier": "every reachable group, number of collections, and bounds", "why_tests_cant": "A k-way merge with a side table must be right for every distribution of the keys.", "anchors": ["citrine/storage/group.py:Group.iteritems"]}
{"id": "C15", "title": "Group.itervalues lists all values", "statement": "Group.itervalues() yields exactly the values stored in the group, each as often as it is stored.", "quantifier": "every reachable group", "why_tests_cant": "Every distribution of values incl. falsy ones.", "anchors": ["citrine/storage/group.py:Group.itervalues"]}
{"id": "C16", "title": "byValue is sorted and exact", "statement": "byValue(min) of a group and of a collection yields exactly the (value, key) pairs with value >= min, once each, highest value first, among equal values highest key first.", "quantifier": "every reachable group whose values are mutually comparable, every bound", "why_tests_cant": "Sorting for all contents.", "anchors": ["citrine/storage/group.py:Group.byValue", "citrine/storage/collection.py:Collection.byValue"]}
{"id": "C17", "title": "minKey/maxKey/popitem of a group are the extremes", "statement": "minKey()/maxKey() of a non-empty group return its least/greatest key, popitem removes and returns the item with the least key, and they raise only if the group has no key.", "quantifier": "every reachable group", "why_tests_cant": "Every distribution of keys over collections, including empty collections.", "anchors": ["citrine/storage/group.py:Group.minKey", "citrine/storage/group.py:Group.maxKey", "citrine/storage/group.py:Group.popitem"]}
{"id": "C18", "title": "A strict group never exceeds its limits", "statement": "In strict mode no sequence of insert/update/pop/clear calls makes any collection hold more than its max_size nor the group more than its max_size.", "quantifier": "every history in strict mode", "why_tests_cant": "Limit must hold after every prefix of every history.", "anchors": ["citrine/storage/group.py:Group.insert", "citrine/storage/group.py:Group.update"]}
{"id": "C19", "title": "A failing call on a group changes nothing", "statement": "insert, update, pop, setdefault on a Group either take effect completely or raise and leave the stored items unchanged.", "quantifier": "every group state and call", "why_tests_cant": "All-or-nothing for every distribution of the new keys.", "anchors": ["citrine/storage/group.py:Group.insert", "citrine/storage/group.py:Group.update", "citrine/storage/group.py:Group.pop"]}
{"id": "C20", "title": "Group.new builds the requested layout", "statement": "Group.new(size, m) creates exactly size empty collections of max_size m and raises ValueError exactly for a missing/zero size or m <= 0; with a custom mapping, collection i (for i in the mapping) has the mapped size, gaps below size have size m, non-integer keys, a too small size and non-positive sizes raise; strict is what was asked.", "quantifier": "every size, max_collection_size, custom mapping and strict flag", "why_tests_cant": "All mappings with gaps.", "anchors": ["citrine/storage/group.py:Group.new"]}
{"id": "C21", "title": "Turning strict on or off applies to every collection", "statement": "After group.strict = v every collection has strict v and group.strict reads v; after container.strict = v container.strict reads v; stored items do not change; non-boolean values raise TypeError and change nothing.", "quantifier": "every group (with at least one collection), every value", "why_tests_cant": "All layouts.", "anchors": ["citrine/storage/group.py:Group.strict", "citrine/storage/container.py:ContainerProperties.strict"]}
{"id": "C22", "title": "Read your latest write", "statement": "In a non-strict container, after any history of write/delete/resize/condense calls, read(id) returns the object last written to id if id was not deleted since, else the default; has(id) is nonzero exactly in the first case.", "quantifier": "every history of calls, ids and objects", "why_tests_cant": "Unbounded histories mixing writes with reorganisations.", "anchors": ["citrine/storage/container.py:Container"]}
{"id": "C23", "title": "write reports creation and never touches other ids", "statement": "write(id, obj) makes read(id) return obj, returns 1 when id was not in the primary group and None when it replaced the primary's copy, and leaves read/has of every other id unchanged.", "quantifier": "every container, id, object", "why_tests_cant": "Frame condition over all other ids.", "anchors": ["citrine/storage/container.py:Container.write"]}
{"id": "C24", "title": "delete removes an id everywhere and returns the removed objects", "statement": "delete(id) returns the removed copies in group order (empty tuple if the id is absent), afterwards has(id) is 0 and read(id) the default, every other id is unchanged, and it never raises.", "quantifier": "every container state (any number of groups holding the id), every id", "why_tests_cant": "Depends on which subset of groups holds the id.", "anchors": ["citrine/storage/container.py:Container.delete"]}
{"id": "C25", "title": "read returns exactly what is stored", "statement": "read(id) returns the object stored in the first group that has the id, whatever the object is, and the default exactly when no group has it.", "quantifier": "every container and stored value, including falsy values", "why_tests_cant": "Only falsy values expose the difference.", "anchors": ["citrine/storage/container.py:Container.read"]}
{"id": "C26", "title": "condense loses no data and gives earlier groups priority", "statement": "condense(transfer) leaves has(id) > 0 and read(id) as before for every id; afterwards (transfer) the container has only its primary group, holding exactly one copy of every id; the removed groups are returned and are empty.", "quantifier": "every container, every distribution of ids over groups", "why_tests_cant": "Every overlap pattern between groups.", "anchors": ["citrine/storage/container.py:Container.condense"]}
{"id": "C27", "title": "Data stays readable at every step of condense", "statement": "At every point during condense(transfer, transaction_manager) - hence whichever of its commits take effect before a crash - every id is readable in the committed container with the value it had before.", "quantifier": "every container, every crash point / every subset of effective commits", "why_tests_cant": "Crash points in between steps.", "anchors": ["citrine/storage/container.py:Container.condense"]}
{"id": "C28", "title": "resize keeps all data readable", "statement": "resize(capacity, ...) leaves read(id) and has(id) > 0 unchanged for every id, and the new primary group's capacity is at least the requested capacity.", "quantifier": "every container, capacity, flags condense/transfer", "why_tests_cant": "Every distribution and flag combination.", "anchors": ["citrine/storage/container.py:Container.resize"]}
{"id": "C29", "title": "resize with a transaction manager survives a crash at any point", "statement": "If resize(..., transaction_manager=tm) is interrupted at any point, the last committed container still gives every id the value it had before.", "quantifier": "every container, every crash point", "why_tests_cant": "Crash points in between commits.", "anchors": ["citrine/storage/container.py:Container.resize", "citrine/storage/container.py:Container.condense"]}
{"id": "C30", "title": "resize keeps the strict mode and refuses too small capacities", "statement": "After resize container.strict is what it was before; resize with a capacity smaller than the number of stored objects raises ValueError (docstring).", "quantifier": "every container and capacity", "why_tests_cant": "Every container state.", "anchors": ["citrine/storage/container.py:Container.resize", "citrine/storage/group.py:Group.new"]}
{"id": "C31", "title": "A failing condense loses nothing", "statement": "If condense raises because the strict primary group is full, every id is still readable with its old value.", "quantifier": "every strict container and distribution", "why_tests_cant": "The failure point can be at any id.", "anchors": ["citrine/storage/container.py:Container.condense"]}
{"id": "C32", "title": "A strict container never exceeds its capacity", "statement": "In strict mode no history of write/delete calls makes the number of items in the primary group exceed the capacity; a write that would do so raises and changes nothing.", "quantifier": "every history in strict mode", "why_tests_cant": "Limit must hold after every prefix.", "anchors": ["citrine/storage/container.py:Container.write", "citrine/storage/group.py:Group.insert"]}
{"id": "C33", "title": "create never overwrites", "statement": "ContainerConnection.create(id, obj) stores obj if id is absent; if id is present in any group it raises ObjectOverwriteError and the stored object is unchanged, in memory and on disk.", "quantifier": "every database state and id", "why_tests_cant": "All states.", "anchors": ["citrine/connection/container_connection.py:ContainerConnection.create"]}
{"id": "C34", "title": "update upserts and returns the previous object", "statement": "update(id, obj) makes read(id) return obj and returns what read(id) returned before (None if absent); other ids are unaffected.", "quantifier": "every database state, id and object", "why_tests_cant": "All states.", "anchors": ["citrine/connection/container_connection.py:ContainerConnection.update"]}
{"id": "C35", "title": "Subscript access agrees with read", "statement": "conn[id] returns the stored object and raises KeyError exactly when the id is absent; conn[ids] returns the list of reads in order and raises KeyError only when none of the ids is stored; non-iterables raise IndexError.", "quantifier": "every database state, id or list of ids", "why_tests_cant": "All states and lists.", "anchors": ["citrine/connection/container_connection.py:ContainerConnection.__getitem__"]}
{"id": "C36", "title": "With autocommit every successful call is durable and every failed call leaves no trace", "statement": "Outside a transaction block with autocommit on, each create/update/delete that returns is on disk before the next call, and each one that raises leaves both the database and the session exactly as before.", "quantifier": "every history of autocommitted calls and every crash point between them", "why_tests_cant": "Durability at every point of every history.", "anchors": ["citrine/storage/transaction.py:autocommit", "citrine/storage/transaction.py:TransactionManager.__exit__", "citrine/connection/container_connection.py:ContainerConnection"]}
{"id": "C37", "title": "A with-block is atomic", "statement": "The calls made inside `with conn:` become durable all together when the block ends normally and have no effect at all when an exception leaves the block or the process dies inside it.", "quantifier": "every sequence of calls in the block, every exception/crash point", "why_tests_cant": "Every crash point in every block.", "anchors": ["citrine/storage/transaction.py:TransactionManager.__enter__", "citrine/storage/transaction.py:TransactionManager.__exit__", "citrine/connection/container_connection.py:ContainerConnection.__enter__", "citrine/connection/container_connection.py:ContainerConnection.__exit__"]}
{"id": "C38", "title": "A crash restores the last committed state", "statement": "At any point of any session history, reopening the database shows exactly the calls executed before the last commit that were not aborted.", "quantifier": "every history of calls, commits, aborts, blocks, autocommit switches, and crash points", "why_tests_cant": "Unbounded histories with crashes.", "anchors": ["citrine/storage/transaction.py", "citrine/connection/container_connection.py:ContainerConnection"]}
{"id": "C39", "title": "Writes made with autocommit off are kept until committed or aborted by the user", "statement": "After conn.autocommit = False, the calls made stay pending and are neither committed nor discarded until the user commits, aborts or starts a block; turning autocommit back on does not lose them.", "quantifier": "every history with autocommit switches", "why_tests_cant": "Unbounded histories.", "anchors": ["citrine/connection/container_connection.py:ContainerConnectionProperties.autocommit", "citrine/storage/transaction.py:autocommit"]}
{"id": "C40", "title": "The autocommit option is honoured", "statement": "A connection opened with autocommit=False does not commit by itself; conn.autocommit tells whether calls are committed automatically.", "quantifier": "every constructor argument and history of switches and blocks", "why_tests_cant": "All histories.", "anchors": ["citrine/connection/container_connection.py:ContainerConnection.__init__", "citrine/connection/container_connection.py:ContainerConnectionProperties.autocommit"]}
{"id": "C41", "title": "Opening never discards an existing container", "statement": "Opening a database (ContainerDb load / client connect) creates a default container only when none is present and otherwise leaves the stored data untouched; a connection to a database without a container raises IncompatibleDatabaseError.", "quantifier": "every stored root state", "why_tests_cant": "All stored states.", "anchors": ["citrine/database/containerdb.py:ContainerDb.__init__", "citrine/client/container_client.py:ContainerClient.connect", "citrine/connection/container_connection.py:ContainerConnection.__init__"]}
{"id": "C42", "title": "A new database has the requested capacity and strictness", "statement": "ContainerDb.create/new(file, capacity, strict) stores a container whose capacity is at least capacity and whose strict flag is strict.", "quantifier": "every capacity >= 1 and flag", "why_tests_cant": "All arguments.", "anchors": ["citrine/database/containerdb.py:ContainerDb.create", "citrine/database/containerdb.py:ContainerDb.new"]}
{"id": "C43", "title": "DbContainer behaves as one map", "statement": "After any history of write/delete calls on a DbContainer with n >= 1 sub-containers, has/read/size answer as a plain map; delete of a missing id raises KeyError and changes nothing.", "quantifier": "every history, n >= 1, ids and objects", "why_tests_cant": "Unbounded histories.", "anchors": ["citrine/persistence.py:DbContainer"]}
{"id": "C44", "title": "Expanding a DbContainer keeps every object reachable", "statement": "expand_size(n) raises ValueError and changes nothing unless n is larger than the current number of sub-containers, and afterwards every stored object is still found by read/has.", "quantifier": "every DbContainer state and n", "why_tests_cant": "Depends on how every id hashes modulo both sizes.", "anchors": ["citrine/persistence.py:DbContainer.expand_size", "citrine/connection/connection.py:CitrineConnection.expand_containers"]}
{"id": "C45", "title": "The legacy connection is a durable map", "statement": "CitrineConnection create/update/delete/read/[] behave as a durable map: each autocommitted call that returns is on disk, a delete of a missing id raises and leaves everything unchanged, reading a list of ids gives the list of reads.", "quantifier": "every history of calls", "why_tests_cant": "Unbounded histories.", "anchors": ["citrine/connection/connection.py:CitrineConnection", "citrine/persistence.py:autocommit"]}
{"id": "C46", "title": "The cluster registry is a map of module records", "statement": "After any history of write/delete, ClusterRegistryContainer.read(id) returns the record (name, path) of the module last written under id, has(id) agrees, and expand_size changes nothing.", "quantifier": "every history", "why_tests_cant": "Unbounded histories.", "anchors": ["citrine/cluster_tools/clusterdb/container.py:ClusterRegistryContainer"]}
{"id": "C47", "title": "A group read returns the first hit and reports duplicates", "statement": "GroupReadConnection.read(id) returns the object of the first database that has it (whatever order the tasks finish in), None if none has it; if more than one has it and multiple is False it raises CitrineDuplicateIdError.", "quantifier": "every list of databases, id, completion order", "why_tests_cant": "Task completion orders.", "anchors": ["citrine/connection/group_connection.py:GroupReadConnection.read"]}
{"id": "C48", "title": "Creating or destroying a database module touches nothing else", "statement": "create_dbmodule refuses to touch an existing path unless overwrite is set; delete_dbmodule removes only the module's own files and, if it is then empty, its directory; every other file is untouched.", "quantifier": "every directory content and name", "why_tests_cant": "All directory contents.", "anchors": ["citrine/cluster_tools/dbmodule/dbmodule.py:create_dbmodule", "citrine/cluster_tools/dbmodule/dbmodule.py:delete_dbmodule"]}
{"id": "C49", "title": "Property contexts are balanced", "statement": "After any properly nested use of `with obj.switch_context(c):` blocks, normal or exceptional, the object's context is what it was before; inside the innermost block it is the context asked for.", "quantifier": "every nesting of blocks and exceptions", "why_tests_cant": "Unbounded nesting and exception points.", "anchors": ["jsonld/base.py:JsonContextAwareManager", "jsonld/base.py:PropertyAwareObject.switch_context"]}
{"id": "C50", "title": "Contextual accessors dispatch to the registered function", "statement": "A ContextualProperty calls, for get, set and delete, the accessor registered for the object's current context and otherwise the default one (AttributeError if there is none); registering an accessor for one context changes no other context; setter/getter/deleter return a new property and leave the original unchanged.", "quantifier": "every sequence of registrations and every context", "why_tests_cant": "Every registration history.", "anchors": ["jsonld/base.py:ContextualProperty"]}
{"id": "C51", "title": "Setter validation accepts exactly the allowed values", "statement": "A validated setter stores a value exactly when it is of an allowed type (or None when allowed) or, for a non-functional property, a list nested to any depth whose leaves all are, and every additional check passes on every leaf; the stored value equals the given one; otherwise it raises and the old value is kept.", "quantifier": "every value (arbitrarily nested lists), type set, functional flag, validators", "why_tests_cant": "Unbounded nesting.", "anchors": ["jsonld/tools/type.py:evaluate_value", "jsonld/tools/type.py:SetterValidator"]}
{"id": "C52", "title": "Non-negative properties never hold negative numbers", "statement": "A property validated with is_nonnegative never stores a negative number, also not inside lists, after any history of assignments.", "quantifier": "every history of assignments", "why_tests_cant": "Unbounded histories.", "anchors": ["jsonld/tools/number.py:is_nonnegative", "jsonld/tools/type.py:SetterValidator"]}
{"id": "C53", "title": "Durations survive formatting", "statement": "timedelta_str(d) denotes (with 365-day years and 30-day months) exactly the days and whole seconds of d, so different non-negative durations in whole seconds never print the same, and the result is a valid ISO-8601 duration.", "quantifier": "every timedelta", "why_tests_cant": "All integers days/seconds.", "anchors": ["jsonld/tools/datetime.py:timedelta_str"]}
{"id": "C54", "title": "Timestamps survive a round trip", "statement": "parse_activitystream_datetime(datetime_str(t)) == t for every naive datetime t with whole seconds, and datetime_str(t) always matches the accepted ActivityStreams format.", "quantifier": "every datetime with a four-digit year", "why_tests_cant": "All dates.", "anchors": ["jsonld/tools/datetime.py:datetime_str", "jsonld/tools/datetime.py:parse_activitystream_datetime", "jsonld/tools/datetime.py:is_activity_datetime"]}
{"id": "C55", "title": "URL validation", "statement": "validate_url(u) is True only for http/https URLs with a non-empty host made of letters, digits, '_', '.', ':' and '-' and, when secure, only for https; properties validated with it never store an invalid URL.", "quantifier": "every string", "why_tests_cant": "All strings.", "anchors": ["jsonld/tools/url.py:validate_url", "activitystreams/properties.py:Id"]}
{"id": "C56", "title": "data() emits exactly the selected properties", "statement": "obj.data(include, exclude, rename, include_none, reject_values) contains exactly the properties that are included (all by default), not excluded, not None (unless include_none) and not rejected, under their renamed names (JSON-LD keywords get their '@'), and the object is unchanged afterwards.", "quantifier": "every object, include/exclude/rename sets", "why_tests_cant": "All property sets.", "anchors": ["jsonld/jsonld.py:PropertyJsonLD.data"]}
{"id": "C57", "title": "data() is JSON-serialisable", "statement": "The result of data() consists of strings, numbers, lists and string-keyed dictionaries only, at every depth, whatever values the properties hold; strings, numbers, lists and nested objects keep their value.", "quantifier": "every value tree", "why_tests_cant": "Unbounded nesting.", "anchors": ["jsonld/jsonld.py:PropertyJsonLD.__handler", "jsonld/jsonld.py:PropertyJsonLD.json"]}
{"id": "C58", "title": "Nested objects carry no context of their own and lose nothing else", "statement": "In the output of data(), '@context' appears only at the top level; a nested object keeps all its other properties.", "quantifier": "every object tree", "why_tests_cant": "Unbounded nesting.", "anchors": ["jsonld/jsonld.py:PropertyJsonLD.__handler", "jsonld/jsonld.py:PropertyJsonLD.data"]}
{"id": "C59", "title": "The document cache is consistent", "statement": "A loaded JSON-LD document is fetched at most once per URL after success and later calls return the same document; failures are not cached and surface as JsonLdError; a secure loader never returns a document for a non-https URL.", "quantifier": "every history of loads by any loaders and every behaviour of the network", "why_tests_cant": "Unbounded histories with failures.", "anchors": ["jsonld/docloader.py:CachedRequestsJsonLoader", "jsonld/docloader.py:RequestsJsonLoader.get"]}
{"id": "C60", "title": "from_json builds the object of the declared type from declared properties only", "statement": "engine.from_json(data) creates an instance of the class registered for the expanded @type with exactly the class's properties set from the data (None when missing), nested typed objects become objects, lists keep length and order, plain values are unchanged, and the caller's dict is not modified.", "quantifier": "every JSON tree and registry", "why_tests_cant": "Unbounded nesting.", "anchors": ["jsonld/engine/json_input.py:PropertyJsonIntake.from_json", "jsonld/engine/json_input.py:PropertyJsonIntake._unpack_objects"]}
{"id": "C61", "title": "Class registration is unique", "statement": "In an engine every namespace is registered to exactly one class; registering a namespace twice raises ValueError and keeps the first registration.", "quantifier": "every sequence of registrations", "why_tests_cant": "Unbounded sequences.", "anchors": ["jsonld/engine/jsonld_engine.py:JsonLdEngine.register_class", "jsonld/engine/jsonld_engine.py:JsonLdEngine.__load_objects"]}
{"id": "C62", "title": "Packages can be combined and subtracted", "statement": "p + q has q's classes plus p's classes whose namespace q does not define; p - q has p's classes (and properties) whose namespace q does not define; an engine accepts a list of packages.", "quantifier": "every pair of packages", "why_tests_cant": "All packages.", "anchors": ["jsonld/package.py:JsonLdPackage.__add__", "jsonld/package.py:JsonLdPackage.__sub__", "jsonld/engine/jsonld_engine.py:JsonLdEngine.__init__"]}
{"id": "C63", "title": "Package contents are fixed after construction", "statement": "namespace, objects and properties of a package cannot be changed once set to a non-empty value: assignments raise AttributeError and change nothing; a non-string namespace raises TypeError.", "quantifier": "every sequence of assignments", "why_tests_cant": "Unbounded sequences.", "anchors": ["jsonld/package.py:JsonLdPackage"]}
{"id": "C64", "title": "Property linking is exact", "statement": "Building a package links to each class exactly the properties its mapping lists; a mapping entry naming an unknown class or property raises ValueError.", "quantifier": "every mapping", "why_tests_cant": "All mappings.", "anchors": ["jsonld/package.py:JsonLdPackage.link_properties", "jsonld/package.py:JsonLdPackage.__perform_mapping"]}
{"id": "C65", "title": "Class cloning visits every class once, parents first, and terminates", "statement": "Cloning any finite set of classes terminates, clones each class exactly once, and clones every package ancestor of a class before the class, so each clone inherits from the clones of its nearest package ancestors.", "quantifier": "every finite class hierarchy, in every listing order", "why_tests_cant": "All hierarchies (partial orders).", "anchors": ["jsonld/kamino.py:ClassCloner.clone_classes", "jsonld/kamino.py:ClassCloner.DependencyNode"]}
{"id": "C66", "title": "Changing an object's class loses no property value", "statement": "change_class(obj, cls) returns an object of class cls on which every property value obj had before can be read, under the property if cls has a setter for it or else as an attribute.", "quantifier": "every object and target class", "why_tests_cant": "All property sets.", "anchors": ["jsonld/kamino.py:ClassCloner.change_class"]}
{"id": "C67", "title": "Links reduce to their href", "statement": "href_only maps Link objects to their href and lists element-wise, keeps every other value, and is idempotent; create_link turns valid URL/e-mail strings into Links, handles lists element-wise (length and order kept), keeps everything else; href_only after create_link returns the original strings.", "quantifier": "every value, arbitrarily nested lists", "why_tests_cant": "Unbounded nesting.", "anchors": ["activitystreams/models.py:Link"]}
{"id": "C68", "title": "Expanding a link never fails and never loses the link", "statement": "Link.expand/get return the fetched object when the fetch and parse succeed and otherwise a fallback, never an exception from the network or the parser.", "quantifier": "every network behaviour", "why_tests_cant": "All failure modes.", "anchors": ["activitystreams/models.py:Link"]}
{"id": "C69", "title": "totalItems is consistent", "statement": "Collection.totalItems is never negative and, unless set explicitly, equals the number of items.", "quantifier": "every collection and history of assignments", "why_tests_cant": "Unbounded histories.", "anchors": ["activitystreams/models.py:Collection", "activitystreams/properties.py:TotalItems"]}
{"id": "C70", "title": "The ActivityStreams package loads", "statement": "Building the bundled ActivityStreams package raises no error: all class and property namespaces are pairwise distinct and every mapping entry names a registered class and registered properties, every class's type name is unique.", "quantifier": "every entry of the shipped tables", "why_tests_cant": "A finite table, but of ~1400 entries; checked exhaustively in the kernel.", "anchors": ["activitystreams/package.py", "activitystreams/models.py", "activitystreams/properties.py"]}
{"id": "C71", "title": "Property setters and getters agree", "statement": "For every bundled ActivityStreams property, a value accepted by the setter is what the getter returns afterwards, and no other property changes.", "quantifier": "every bundled property, value and prior object state", "why_tests_cant": "All values and properties.", "anchors": ["activitystreams/properties.py"]}
{"id": "C72", "title": "get_primes lists the primes of a range", "statement": "get_primes(min, max) yields, in increasing order, exactly the primes p with min <= p <= max (without max: all primes from min on, without end).", "quantifier": "all min, max >= 0 and every number of generated elements", "why_tests_cant": "The generator is infinite and the bounds are arbitrary; a test looks at finitely many prefixes.", "anchors": ["citrine/storage/utils.py: get_primes"]}
{"id": "C73", "title": "A failed commit is reported and leaves autocommit working", "statement": "If the storage refuses a commit made by an autocommitted call, the call raises, the stored data is unchanged, and later calls on a connection whose autocommit is on are durable again when they return.", "quantifier": "every database state, call and failing commit", "why_tests_cant": "All states and failure points.", "anchors": ["citrine/storage/transaction.py:TransactionManager.__exit__", "citrine/storage/transaction.py:autocommit"]}
{"id": "C74", "title": "Setting strict on a connection is durable", "statement": "With autocommit on, `conn.strict = b` is on disk when the assignment returns and is not undone by later calls.", "quantifier": "every database state, flag and following call", "why_tests_cant": "All states and histories.", "anchors": ["citrine/connection/container_connection.py:ContainerConnectionProperties.strict"]}
{"id": "C75", "title": "Creating a database never silently discards an existing one", "statement": "ContainerDb.create/new on a file that already holds a database, without create=True, keeps every stored object readable (or raises).", "quantifier": "every existing database content and every capacity", "why_tests_cant": "All stored states.", "anchors": ["citrine/database/containerdb.py:ContainerDb.create", "citrine/database/containerdb.py:ContainerDb.new"]}
{"id": "C76", "title": "A crash while creating or first opening a database leaves it openable", "statement": "At every crash point of creating a database, or of opening a new or existing one, the storage can be opened again afterwards (or is untouched).", "quantifier": "every storage content, arguments and crash point", "why_tests_cant": "Every crash point.", "anchors": ["citrine/database/containerdb.py:ContainerDb.__init__", "citrine/database/containerdb.py:ContainerDb.create"]}
{"id": "C77", "title": "A created database module is usable and discoverable", "statement": "DbModule.create(root, name) raises nothing for a free name and its directory is afterwards found by find_dbmodules; find_dbmodules returns exactly the directories whose __init__.py executes and declares DB_MODULE.", "quantifier": "every directory content and free name", "why_tests_cant": "All directory contents.", "anchors": ["citrine/cluster_tools/dbmodule/dbmodule.py:DbModule.create", "citrine/cluster_tools/dbmodule/dbmodule.py:import_db", "citrine/cluster_tools/dbmodule/dbmodule.py:find_dbmodules", "citrine/cluster_tools/dbmodule/consts.py"]}
{"id": "C78", "title": "Destroying a module removes it from the group; a module's path is fixed", "statement": "After DbGroup.destroy_dbmodule(m) the group no longer lists m and its files are gone; the path of a DbModule can be set once, to an existing path, and never changes afterwards.", "quantifier": "every group, module and sequence of assignments", "why_tests_cant": "All groups and sequences.", "anchors": ["citrine/cluster_tools/dbmodule/dbgroup.py:DbGroup.destroy_dbmodule", "citrine/cluster_tools/dbmodule/dbmodule.py:DbModule.path"]}
{"id": "C84", "title": "A packaged class behaves like its original", "statement": "Every attribute looked up on a packaged class (or on its instances) is the one of the class that defines it for the original class, and the packaged class is a subclass of its original and of the packaged versions of all its packaged ancestors.", "quantifier": "every class hierarchy Python accepts, every choice of packaged classes, every attribute", "why_tests_cant": "All hierarchies with multiple inheritance.", "anchors": ["jsonld/kamino.py:ClassCloner.clone_classes"]}
{"id": "C79", "title": "Properties for Objects accept Objects", "statement": "Every ActivityStreams property declared with types (Object, ...) accepts every Object (any class of the vocabulary but Link) and stores it; assigning one never raises.", "quantifier": "every property of the vocabulary, object class and prior state", "why_tests_cant": "All properties times all classes.", "anchors": ["activitystreams/properties.py", "jsonld/tools/type.py"]}
{"id": "C80", "title": "Constructor arguments are kept", "statement": "For every ActivityStreams class, packaged or not, an argument given to the constructor for one of its parameters is the value of the attribute or property of that name on the new object; unknown arguments have no effect; constructing needs no argument but the id of Relationship, Place, Profile and Tombstone.", "quantifier": "every class, parameter and argument list", "why_tests_cant": "54 classes with ~30 parameters each and arbitrary values.", "anchors": ["activitystreams/models.py"]}
{"id": "C86", "title": "Serialising makes no network requests", "statement": "Reading a property for JSON output (data(), json()) never fetches a link; links are written as their href and dates as strings.", "quantifier": "every property, stored value and network", "why_tests_cant": "All values and all network behaviours.", "anchors": ["activitystreams/properties.py", "activitystreams/models.py:Link"]}
{"id": "C81", "title": "Every type of the vocabulary can be loaded", "statement": "The engine made from the shipped ActivityStreams package resolves the type of every class of the vocabulary: from_json of a document of that type builds an object of that class, from the unpacked values of the document, at the top and nested.", "quantifier": "every class of the package, every document, expansion result and network", "why_tests_cant": "54 classes times arbitrary documents; depends on the order in which class attributes are overwritten while the package is linked.", "anchors": ["activitystreams/package.py:create_package", "jsonld/package.py:PropertyPackage", "jsonld/json_input.py:JsonLdEngine"]}
{"id": "C87", "title": "Loading keeps the document", "statement": "An ActivityStreams object built by the engine of the shipped package from a document has, for every property of its class, the unpacked value the document gives for it (links and dates converted), and None for the others.", "quantifier": "every class of the package, property, document, expansion result and network", "why_tests_cant": "About 1900 pairs of class and property, times arbitrary values; each goes through its own chain of constructors.", "anchors": ["jsonld/json_input.py:JsonLdEngine.from_json", "activitystreams/models.py", "activitystreams/package.py"]}
{"id": "C82", "title": "Reading does not change the vocabulary", "statement": "Reading properties of packaged objects, whatever objects they hold, changes the namespace of no class and the types known to no engine made later.", "quantifier": "every sequence of objects that are read, every class", "why_tests_cant": "Depends on the history of all reads in the process.", "anchors": ["jsonld/kamino.py:ClassCloner.change_class", "jsonld/kamino.py:ClassCloner.wrap_properties", "jsonld/base.py:NamespacedObject"]}
{"id": "C83", "title": "The property list of a class does not depend on the history", "statement": "The properties a class reports (and the name and registration of a property class) are those defined in it and its ancestors, whatever was asked about this or other classes before.", "quantifier": "every class hierarchy and history of calls", "why_tests_cant": "The caches are inherited class attributes; what is found depends on the order of all earlier calls.", "anchors": ["jsonld/base.py:PropertyAwareObject", "jsonld/base.py:JsonProperty"]}
{"id": "C88", "title": "Writing and loading gives the object back", "statement": "Loading what data() gives of a packaged object, with an engine that knows the vocabulary, gives an equal object: of the same class, with the same value for every property, nested objects included.", "quantifier": "every class of the vocabulary, every object of it, with objects nested to any depth, and every context", "why_tests_cant": "Quantifies over all objects with nested objects of any depth, and combines output, conversion of links and dates, the types known to the engine and the constructors.", "anchors": ["jsonld/jsonld.py:ApplicationActivityJson.data", "jsonld/engine/json_input.py:JsonInputManager.from_json", "activitystreams/properties.py", "activitystreams/models.py", "activitystreams/package.py:create_engine"]}
{"id": "C89", "title": "A new container is a map from ids to latest objects", "statement": "In a container made by Container.new without strict mode, after any history of write, delete, read, has, resize and condense calls (with any arguments, also failing ones), read(id) gives the object last written under id and not deleted since, and the default otherwise, and has(id) is 0 exactly in the second case; objects are truthy.", "quantifier": "every sizes given to new, every history of calls that does not turn strict mode on, every id, every type of truthy objects", "why_tests_cant": "Must hold after every history, in particular for every layout of groups reached by resizing.", "anchors": ["citrine/storage/container.py:Container.read", "citrine/storage/container.py:Container.write", "citrine/storage/container.py:Container.delete", "citrine/storage/container.py:Container.resize", "citrine/storage/container.py:Container.condense"]}
{"id": "C90", "title": "Writing to a container in use always succeeds", "statement": "In such a container write(id, obj) never fails, whatever the number of objects; it returns 1 if the id was absent and None otherwise, and afterwards id is read as obj and all other ids as before.", "quantifier": "every history and every id and object", "why_tests_cant": "Quantifies over all histories and all ids.", "anchors": ["citrine/storage/container.py:Container.write"]}
{"id": "C91", "title": "Deleting from a container in use always succeeds", "statement": "In such a container delete(id) never fails, returns the removed objects, the one that was read first, or nothing if the id is absent, and afterwards id is absent and every other id is read as before.", "quantifier": "every history and every id", "why_tests_cant": "Quantifies over all histories; delete can fail on containers built otherwise.", "anchors": ["citrine/storage/container.py:Container.delete"]}
{"id": "C92", "title": "Reorganising a container in use loses nothing, at any crash point", "statement": "In such a container condense() never fails and resize() with positive sizes never fails and gives at least the capacity asked for; all ids are read as before, not only at the end but in every state that is put on disk in between with a transaction manager, whichever of the commits take effect. (resize with condense=False, transfer=True only for containers with one group, which it leaves with one group.)", "quantifier": "every history, sizes, flags and every choice of commits that take effect", "why_tests_cant": "Quantifies over histories and crash points.", "anchors": ["citrine/storage/container.py:Container.resize", "citrine/storage/container.py:Container.condense"]}
{"id": "C93", "title": "A database behaves as a transactional map", "statement": "A database made by ContainerDb.new (any positive capacity) and used through a ContainerConnection without strict mode behaves, after every history of create, update, delete, with-blocks, commits, aborts, autocommit switches, failing commits and crashes, exactly like a transactional map: read, [] and the answers of all calls are those of the map (create refuses existing ids, update gives the previous object, delete the removed ones), and after a crash the session shows exactly what the map has on disk. Objects are truthy.", "quantifier": "every capacity, every initial content of the file, every history of events, every id and object", "why_tests_cant": "Refinement over all histories, including crash points and failing commits.", "anchors": ["citrine/connection/container_connection.py:ContainerConnection", "citrine/database/containerdb.py:ContainerDb.new", "citrine/storage/transaction.py:autocommit", "citrine/storage/container.py:Container"]}
{"id": "C94", "title": "Opening a database group lists its modules", "statement": "DbGroup(root, modules=given) raises exactly if a directory in root whose __init__.py runs and sets DB_MODULE does not give a database; otherwise group.modules lists exactly the databases of these directories (the last directory listed wins if two give the same database name), except that the given modules take precedence.", "quantifier": "every directory content, every behaviour of the __init__.py files, every dictionary of given modules", "why_tests_cant": "ranges over all directory contents and all module behaviours", "anchors": ["citrine/cluster_tools/dbmodule/dbgroup.py:DbGroup.__init__", "citrine/cluster_tools/dbmodule/dbgroup.py:DbGroup.discover", "citrine/cluster_tools/dbmodule/dbmodule.py:find_dbmodules", "citrine/cluster_tools/dbmodule/dbmodule.py:import_db"]}
{"id": "C85", "title": "package[...] and engine[...] find classes by their namespace", "statement": "package[namespace] gives the class or property of the package with this namespace (the last given if there are several) and None if there is none; package[list of namespaces] gives the list of these answers in the same order, and raises ValueError if one of the keys is not a string. engine[...] answers in the same way over all registered packages.", "quantifier": "every package built from every list of classes and properties, every key and list of keys", "why_tests_cant": "Quantifies over all packages and all key lists.", "anchors": ["jsonld/package.py:JsonLdPackage.__getitem__", "jsonld/engine/jsonld_engine.py:JsonLdEngine.__getitem__"]}
{"id": "C95", "title": "Date texts are accepted exactly when they denote a real moment", "statement": "A text assigned to endTime, published, startTime or updated is accepted and stored as the moment m exactly if it is YYYY-MM-DDTHH:MM(:SS(.ffffff))(Z or +-HH:MM) of the ActivityStreams format denoting m and the date exists in the Gregorian calendar (month 1-12, day within the month, 29 February only in leap years, year at least 1) and the time of day exists; every other text is refused with ValueError and the property keeps its value.", "quantifier": "every text, every previous state of the object", "why_tests_cant": "Quantifies over all strings and all calendar dates.", "anchors": ["jsonld/tools/datetime.py:parse_activitystream_datetime", "activitystreams/properties.py:Published"]}
{"id": "C96", "title": "The classes are the ActivityStreams 2.0 vocabulary", "statement": "The package has exactly the types of the ActivityStreams 2.0 vocabulary; an object of a class is an instance (isinstance) of exactly the types its type extends; and a class has exactly the properties whose domain in the vocabulary has one of its types, except that Objects lack context, Links lack attributedTo, and collections also have orderedItems and unorderedItems.", "quantifier": "every pair of types of the vocabulary; every class and every property name", "why_tests_cant": "Quantifies over all property names and all pairs of classes; a test would have to enumerate what is not there.", "anchors": ["activitystreams/models.py", "activitystreams/properties.py", "activitystreams/__init__.py"]}
{"id": "C97", "title": "Properties take exactly the values of their range, with these deviations", "statement": "Assigning a value to a property of an object succeeds exactly if the value is None, or belongs to one of the kinds in the range the vocabulary gives the property (an object of the named type, a Link, the address of one, text, moment, duration, boolean, number, count), or, unless the property is functional, is a list of such values (where Links can stand, also a tuple or set); otherwise the assignment raises. The exact deviations: refused although in the range are Objects for preview, result, tag, target, to, subject, relationship, describes and formerType, addresses for describes, formerType and replies, and moments written as text for deleted and closed; taken beyond the range are account names and mappings with an href where Links can stand, any text for id, url, href, relationship and duration, any Object for icon and image, other mappings for tag and any mapping for name, and booleans for numbers; type takes anything in the classes below Object and Link. A value of the range that is taken is what the property has afterwards (an address where Links can stand as a Link with this address, a moment written as text as the moment), except hreflang, which cannot be read.", "quantifier": "every type and property of the vocabulary, every value (lists of any depth), every previous state of the object", "why_tests_cant": "Quantifies over all values, including all texts and nested lists.", "anchors": ["activitystreams/properties.py", "jsonld/tools/type.py:property_type", "activitystreams/models.py:Link.from_str"]}
{"id": "C98", "title": "Sessions share one map with snapshot isolation", "statement": "Several connections of one database, whatever the order of their begins, calls, commits and aborts, behave like transactions on one map under snapshot isolation: each transaction sees the map stored when it began with its own changes on top and gets the answers of this map; commit puts exactly its changes on the stored map, or raises and changes nothing if an id it changed was changed by others since it began (or the storage refuses, or - only if the container has several groups - both have deleted the same leftover copy in an old group); after a failed commit calls raise until the transaction is aborted.", "quantifier": "every container made by Container.new, however used and resized before, not in strict mode; every number of sessions; every schedule of begin, create, update, delete, strict = False, commit and abort; every moment at which the storage refuses a commit", "why_tests_cant": "Quantifies over all interleavings of any number of sessions.", "anchors": ["citrine/database/containerdb.py:ContainerDb.open", "citrine/storage/transaction.py", "citrine/connection/container_connection.py:ContainerConnection"]}
{"id": "C99", "title": "A block is isolated and atomic among other sessions", "statement": "From the begin of a transaction to its commit the session sees the map stored at the begin with its own calls applied, whatever other sessions do and commit; the commit succeeds only if the storage accepts it and no id it changed has another stored value than at its begin - and exactly then if the container has one group or the transaction deletes nothing; on success the stored map is the other sessions' map with this session's changes on top, on failure an exception is raised and the stored map is untouched.", "quantifier": "every database made by Container.new and used and resized in any way, not in strict mode, after any schedule of any sessions; every block of calls, every interleaving with moves of other sessions", "why_tests_cant": "Quantifies over all interleavings of all other sessions.", "anchors": ["citrine/storage/transaction.py:TransactionManager", "citrine/database/containerdb.py:ContainerDb.open"]}
{"id": "C100", "title": "Autocommit calls of different sessions are linearizable", "statement": "Calls of create, update and delete with autocommit, made by several sessions at the same time, can be ordered such that each takes effect between its beginning and its end and has the answer it has when all are made one after the other; calls that raise a conflict have no effect. (Not so for a container that was constructed by hand with its primary group not first: there an update and a deletion of an object can both succeed and leave the updated object.)", "quantifier": "every container made by Container.new, however used and resized before, not in strict mode; every number of sessions, every interleaving of the beginnings, bodies and commits of the calls, every storage refusal", "why_tests_cant": "Linearizability is a statement about all interleavings.", "anchors": ["citrine/storage/transaction.py:autocommit", "citrine/connection/container_connection.py:ContainerConnection"]}
{"id": "C101", "title": "Committed blocks are serializable", "statement": "A block of calls that commits has the same effect as if it were executed alone at the moment of its commit. (False in general: write skew; proved for blocks whose every id was either changed by the block or not changed by others.)", "quantifier": "every database made by Container.new, used and resized in any way, not in strict mode; every block of calls, every interleaving with other sessions", "why_tests_cant": "Quantifies over all interleavings.", "anchors": ["citrine/storage/transaction.py:TransactionManager"]}
{"id": "C102", "title": "Reads see the calls other sessions have finished", "statement": "A read by one session sees every create, update and delete that another session has finished before. (False: reads do not begin a transaction, so a session keeps seeing the state of its last transaction boundary, whatever the others do.)", "quantifier": "every database, every sequence of moves of other sessions, every id", "why_tests_cant": "Quantifies over all histories of other sessions.", "anchors": ["citrine/connection/container_connection.py:ContainerConnection.read", "citrine/storage/transaction.py:autocommit"]}
{"id": "C103", "title": "A write that returns is not lost by a concurrent resize", "statement": "If a session creates an object and its commit succeeds, the object can be read afterwards, also if another session has resized the container in the meantime. (False: the object goes to the group that the resize has thrown away, and nobody gets an error.)", "quantifier": "every empty container with one group, every id, object and new size", "why_tests_cant": "Depends on the interleaving of a write and a resize.", "anchors": ["citrine/storage/container.py:Container.resize", "citrine/storage/container.py:Container.condense"]}
{"id": "C104", "title": "Strict limits hold among concurrent sessions", "statement": "The number of objects in a strict collection does not exceed its limit, also if several sessions create objects at the same time. (False: each session finds room for one more object and the additions are merged.)", "quantifier": "every interleaving of creations by several sessions", "why_tests_cant": "Depends on the interleaving.", "anchors": ["citrine/storage/collection.py:Collection.insert", "citrine/database/containerdb.py:ContainerDb.open"]}
{"id": "C105", "title": "Threads do not disturb each other's property contexts", "statement": "When several threads work on one object (e.g. two write it as JSON at the same time), each sees the properties of the object in the context of its own with-block, leaving a block never raises, and when all have left the object is in the context it was in before. (False in part: another thread's context can be seen, and the object can remain in the JSON context for good. True: leaving never raises, only contexts somebody asked for are ever seen, the stack of saved contexts is restored; and with uninterrupted switches the original context comes back.)", "quantifier": "every interleaving of the single reads and writes of any number of threads, any contexts", "why_tests_cant": "Depends on the schedule of the threads.", "anchors": ["jsonld/base.py:JsonContextAwareManager", "jsonld/base.py:PropertyAwareObject.switch_context"]}
{"id": "C106", "title": "The document cache can be shared by threads", "statement": "When several threads load documents through the cached loader: a call returns a document that was loaded for its url, or raises JsonLdError, never None and never another url's document; a document is loaded only by a call that began before any call for that url had returned one; once no call is under way all later calls return one and the same document without loading it; calls that are not interrupted behave like sequential ones. Each url is loaded once and all callers get the same document. (The last sentence is false for overlapping calls.)", "quantifier": "every interleaving of the single steps of any number of threads, any behaviour of the network", "why_tests_cant": "Depends on the schedule of the threads and on the network.", "anchors": ["jsonld/docloader.py:CachedRequestsJsonLoader.__call__"]}
{"id": "C107", "title": "Usage figures describe what is stored", "statement": "For a group built from collections made by the constructor: usage is the number of stored ids over the sum of the limits given at construction; lowest_collection_usage and highest_collection_usage are the least and greatest of the collections' ratios and enclose usage; status is the alert level (0, 60, 70, 80, 90) of the highest ratio; usage is 0 exactly when nothing is stored; a successful insert of a new id raises it by one over the limit sum and of a stored id not at all; a group without collections raises ZeroDivisionError or ValueError. For a container the figures are those of its primary group; with one group usage is the number of stored ids over max_size, with more groups it is not (the docstring of usage notwithstanding).", "quantifier": "all numbers and sizes of collections, all histories of calls, all containers built by the constructor or by new and used in any way", "why_tests_cant": "Must hold after every history, for all sizes and distributions of ids over collections.", "anchors": ["citrine/storage/group.py:GroupMeta.usage", "citrine/storage/group.py:GroupMeta.highest_collection_usage", "citrine/storage/group.py:GroupMeta.lowest_collection_usage", "citrine/storage/group.py:GroupMeta.status", "citrine/storage/container.py:ContainerMeta.usage", "citrine/storage/collection.py:CollectionMeta.usage"]}
{"id": "C108", "title": "Strict mode only adds refusals", "statement": "A history of calls on a strict collection, group or container gives the same answers and leaves the same objects in the same places as the history of those of its calls that were not refused with a capacity error, run on the same object with strict off: a call either raises CollectionCapacityError or GroupCapacityError and has no effect, or does exactly what it does without strict; what is read never depends on strict. (False for a group's update and a container's condense or resize that are refused half-way; true of every history without such a refusal.)", "quantifier": "all states, all histories of calls without assignments to strict, all limits", "why_tests_cant": "Relates two runs over all histories and fill levels.", "anchors": ["citrine/storage/collection.py:Collection.insert", "citrine/storage/collection.py:Collection.update", "citrine/storage/group.py:Group.insert", "citrine/storage/group.py:Group.update", "citrine/storage/container.py:Container.write", "citrine/storage/container.py:Container.condense"]}
{"id": "C109", "title": "Sessions share a map and the strict flag, in any mode", "statement": "Several connections of one database made by Container.new (used and resized before in any way, strict mode on or off), whose sessions begin, create, update, delete, assign strict, commit and abort in any interleaving: at every step each session reads the map it began with plus its own changes, the stored container is the map of the committed changes, and every answer is the one of that shared map; `strict` is shared in the same way (a session sees the flag it began with or assigned; a commit stores it if the session changed it and leaves another session's flag alone otherwise). Strict mode adds only this: a session that sees the flag set may be refused a create or update with a capacity error and no effect; and a commit may be refused if both sides have changed the flag (or there are several groups).", "quantifier": "all containers in use, both initial flags, all schedules of all moves but resize, any number of sessions, all refusals by the storage", "why_tests_cant": "ranges over all interleavings of any number of sessions and all points at which the flag changes", "anchors": ["citrine/connection/container_connection.py: ContainerConnection.strict, create, update, delete", "citrine/storage/transaction.py: TransactionManager, autocommit", "citrine/storage/collection.py: Collection.strict"]}
{"id": "C110", "title": "Transactions that do not overlap are serial, whatever they do", "statement": "Several connections of one database made by Container.new (in any mode, used before in any way): if no session commits a transaction after another session has committed since it began, then for all calls - create, update, delete, assignments of strict, resize with any arguments, failing calls too - the stored container and the container seen by every session are exactly those of a single user who makes the calls of the committed transactions one after the other in the order of the commits (and then the session's own calls); all answers are that user's answers, and no commit is refused but by the storage.", "quantifier": "all containers reachable from Container.new, all schedules of any number of sessions whose commits do not overlap, all arguments", "why_tests_cant": "ranges over all schedules, histories and container layouts", "anchors": ["citrine/database/containerdb.py:ContainerDb.open", "citrine/storage/transaction.py:TransactionManager", "citrine/storage/container.py:Container.resize", "citrine/connection/container_connection.py:ContainerConnection"]}
{"id": "C111", "title": "Building a container from existing groups changes and hides nothing", "statement": "Container(primary, groups, strict) over distinct groups with any histories succeeds; its groups are the given ones in the given order, preceded by the primary group if that one is not among them; every group gives the same answer to every lookup and has the same size and limit as before; only the primary group takes the strict argument (off when left out); reading an id gives the object of the first group having it (objects being truthy, as in C25). A strict argument that is not a boolean raises TypeError.", "quantifier": "all lists of distinct groups with any histories, all choices of the primary group, all ids", "why_tests_cant": "Ranges over all group contents and layouts.", "anchors": ["citrine/storage/container.py:Container.__init__", "citrine/storage/container.py:ContainerProperties.strict"]}
{"id": "C112", "title": "Connections are exclusive and closing drops nothing", "statement": "After any history of opening, closing, with-blocks and use of connections, db.open() gives a connection that was not open, and opens or closes no other one. Closing a connection changes nothing that is stored and succeeds only if the connection has no uncommitted changes; otherwise it raises ConnectionStateError and leaves the connection as it is.", "quantifier": "all histories of a database object and its connections, all commits that fail, all pool sizes and ages", "why_tests_cant": "Ranges over all histories of opening and closing.", "anchors": ["citrine/database/containerdb.py:ContainerDb.open", "citrine/connection/container_connection.py:ContainerConnection"]}
{"id": "C113", "title": "A with-db block has its own open connection", "statement": "The connection given by `with db as conn` was not open before, stays open until the block ends whatever other users of the same database object do, and is closed when the block ends (unless it has uncommitted changes: then leaving the block raises ConnectionStateError). (False of the code when two with-blocks of one database object overlap: the end of the first closes the connection of the second, and the first one's is never closed.)", "quantifier": "all histories before the block, all calls of the block and of other users meanwhile", "why_tests_cant": "Ranges over all interleavings of the users of one database object.", "anchors": ["citrine/database/containerdb.py:ContainerDb.__enter__", "citrine/database/containerdb.py:ContainerDb.__exit__"]}
{"id": "C114", "title": "A connection from the pool is as good as new", "statement": "A connection opened after any history behaves like the first connection of a database object just made for the same storage: every sequence of reads, calls, blocks, commits, aborts and switches gives the same answers and the same stored state, and conn.autocommit reports what it does. (The last clause is false of the code: a connection that was closed with autocommit off reports False when it is opened again although its calls are committed one by one.)", "quantifier": "all histories of the database object, all sequences of uses of the connection", "why_tests_cant": "Ranges over all histories left behind in a pooled object.", "anchors": ["citrine/database/containerdb.py:ContainerDb.open", "citrine/connection/container_connection.py:ContainerConnectionProperties.autocommit"]}
{"id": "C115", "title": "Membership, iteration and addition of containers", "statement": "`id in container` says whether the id is stored, iterating over a container gives the stored pairs, and `a + b` reads like a, then like b, as their docstrings promise. (False of the code: the three methods are empty; `in` is always False, iteration raises TypeError, the sum is None.)", "quantifier": "all containers, all ids", "why_tests_cant": "Ranges over all containers and ids.", "anchors": ["citrine/storage/container.py:Container.__contains__", "citrine/storage/container.py:Container.__iter__", "citrine/storage/container.py:Container.__add__"]}
{"id": "C116", "title": "A database opens from every kind of storage the docs allow", "statement": "ContainerDb(storage) and load work, as their docs say, with a FileStorage or another storage object, a path, or None (a database in memory), alone or as part of a multi-database configuration (databases=...): a new storage gets an empty container, an existing one keeps its contents. (False of the code for existing paths, None, new storage objects other than FileStorage, and databases=.)", "quantifier": "every kind of storage argument, every stored state, lock state and databases dictionary", "why_tests_cant": "All stored states times all argument kinds.", "anchors": ["citrine/database/containerdb.py:ContainerDb.__init__", "citrine/database/containerdb.py:ContainerDb.load", "citrine/client/container_client.py:ContainerClient.connect"]}
{"id": "C117", "title": "setup makes what is missing and keeps what is there", "statement": "conn.setup() of a CitrineConnection or ManagedConnection makes the container and the metadata if they are missing and never replaces an existing one, also if a commit is refused or the process dies on the way. (False of the code for ManagedConnection, and for a session with uncommitted changes.)", "quantifier": "every root state, every outcome of the commits, every crash point", "why_tests_cant": "All states and crash points.", "anchors": ["citrine/connection/connection.py:CitrineConnection.setup", "citrine/connection/connection.py:ManagedConnection.setup"]}
{"id": "C118", "title": "A GroupReadConnection opens every database with its own arguments", "statement": "GroupReadConnection(dbs, transaction_manager, **connection_args) opens every database once, in order, with the arguments given for its name in connection_args, which override the defaults. (False of the code for the transaction manager: the shared one always wins.)", "quantifier": "every list of databases, argument dictionaries and behaviour of open", "why_tests_cant": "All argument dictionaries.", "anchors": ["citrine/connection/group_connection.py:GroupReadConnection.__init__"]}
{"id": "C119", "title": "A ManagedGroupDB can be made and keeps its registry in line with its modules", "statement": "ManagedGroupDB(root) (and new) makes a database that lists the modules of the directory; create_dbmodule and destroy_dbmodule add and remove the module and its record, validate_module_registration checks them. (False of the code: the default name clashes with itself, and every operation needs `with db`, which ZODB.DB does not have.)", "quantifier": "every directory content, name and operation", "why_tests_cant": "All directories.", "anchors": ["citrine/cluster_tools/dbmodule/dbgroup.py:ManagedGroupDB"]}
{"id": "C120", "title": "DbGroup.databases and size follow the modules", "statement": "group.databases is the dictionary assigned last if it was not deleted since, else the databases of the current modules, after every history of assignments, deletions and changes of the modules; deleting raises exactly if nothing is assigned; group.size is the sum of the sizes of the modules and raises exactly if one of them does.", "quantifier": "every history", "why_tests_cant": "Unbounded histories.", "anchors": ["citrine/cluster_tools/dbmodule/dbgroup.py:DbGroup.databases", "citrine/cluster_tools/dbmodule/dbgroup.py:DbGroup.size"]}
{"id": "C121", "title": "Objects that refer to each other can be written", "statement": "data() and json() return for every object, however its values are shared and nested: a shared object is written at every place it appears, and the result is the one described by C56 to C58. (RecursionError never occurs.)", "quantifier": "every graph of objects, lists and dictionaries, every recursion limit", "why_tests_cant": "Quantifies over all object graphs, with cycles and of every depth.", "anchors": ["jsonld/jsonld.py:PropertyJsonLD.data", "jsonld/jsonld.py:PropertyJsonLD.json"]}
{"id": "C122", "title": "obj[...] and iteration give the values of properties", "statement": "obj[name] and obj[names] return the dictionary of the asked properties with their values, for every iterable of names; a key that is no property raises KeyError. Iterating over an object gives each property once with its value.", "quantifier": "every object, every iterable of keys", "why_tests_cant": "All property sets and key collections, including one-shot iterators.", "anchors": ["jsonld/base.py:PropertyAwareObject.__getitem__", "jsonld/base.py:PropertyAwareObject.__iter__"]}
{"id": "C123", "title": "transforms are applied", "statement": "A function given in transforms (or in the class attribute default_transforms) for a property is applied to its value before data() and json() write it.", "quantifier": "every object, every dictionary of functions", "why_tests_cant": "All functions and objects.", "anchors": ["jsonld/jsonld.py:PropertyJsonLD.data", "jsonld/jsonld.py:PropertyJsonLD.json"]}
{"id": "C124", "title": "Links can be changed after construction", "statement": "After any sequence of link_property, update_property_link and remove_property_link calls, the objects of each class of the package have exactly the properties that result (the last change of a class and name decides, subclasses inherit), and data() writes exactly those.", "quantifier": "every class hierarchy, every sequence of changes", "why_tests_cant": "Unbounded histories; the list of names is cached per class.", "anchors": ["jsonld/package.py:JsonLdPackage.link_property", "jsonld/package.py:JsonLdPackage.update_property_link", "jsonld/package.py:JsonLdPackage.remove_property_link", "jsonld/base.py:PropertyAwareObject"]}
{"id": "C125", "title": "Property objects answer hasattr and getattr with a default", "statement": "hasattr(prop, name) and getattr(prop, name, default) on an instance of a JsonProperty class never raise: missing attributes give False and the default.", "quantifier": "every property object, every name", "why_tests_cant": "All names.", "anchors": ["jsonld/base.py:JsonProperty.__getattr__"]}
{"id": "C126", "title": "Floating point does not distort sizes, usage and status", "statement": "Although the code computes in binary64 floats, is_prime is right for all numbers up to 2^53, number_of_collections and next_number_of_collections return the exactly computed number for capacities up to 2^52 (2^51), the status of every collection with a limit up to 2^45 (and of every group of such) is the exactly computed one, and every usage figure is the exact one rounded once: 0 only for nothing stored, at least 1 exactly when the limit is reached.", "quantifier": "every number, capacity, limit and content within the stated bounds", "why_tests_cant": "Rounding errors show only for particular numerators and denominators; there are too many pairs to try.", "anchors": ["citrine/storage/utils.py:is_prime", "citrine/storage/utils.py:number_of_collections", "citrine/storage/utils.py:next_number_of_collections", "citrine/storage/collection.py:CollectionMeta.usage", "citrine/storage/collection.py:CollectionMeta.status", "citrine/storage/group.py:GroupMeta"]}
{"id": "C127", "title": "An object built with a package can be stored in a Citrine database", "statement": "conn.create and conn.update accept every ActivityStreams object, and a later read (after a crash too) returns an equal object of the same class. False for objects of packaged classes (those made by a JsonLdPackage or loaded by its engine), or with one anywhere inside them: the call raises, or the with block loses all its changes; objects of the classes as they are defined in their modules are stored like any other value, and what is read back never has a packaged class in it.", "quantifier": "every program, class, object tree, call, block, history of a session and crash point", "why_tests_cant": "Whether an object can be stored depends on every class occurring in it at any depth, and the damage on the whole history of the session.", "anchors": ["jsonld/kamino.py:ClassCloner.clone_classes", "jsonld/package.py:JsonLdPackage", "citrine/connection/container_connection.py:ContainerConnection.create", "citrine/connection/container_connection.py:ContainerConnection.update", "citrine/storage/transaction.py:autocommit"]}
{"id": "C128", "title": "Changing an object that was read changes nothing stored until update is called", "statement": "Objects returned by conn.read, or given to conn.create and conn.update, can be changed by the program; the database changes by calls only: an entry has the contents its object had when the last create or update for its id was called, abort undoes changes, and update returns the contents stored before. False: a changed object is written when a neighbour in the same storage record is created, updated or deleted, and otherwise is lost when the record leaves the cache; abort keeps it; and read-change-update returns the changed object as the previous one. True while no object is changed that is in the database; and what is on disk of a record never changes without a call about one of its ids.", "quantifier": "every history of calls, blocks, commits, aborts, crashes, changes of objects and cache evictions, every session, every assignment of ids to storage records", "why_tests_cant": "What is stored depends on which ids share a record, on what is cached and on all interleavings of changes and calls.", "anchors": ["citrine/connection/container_connection.py:ContainerConnection.read", "citrine/connection/container_connection.py:ContainerConnection.update", "citrine/connection/container_connection.py:ContainerConnection.create", "citrine/storage/transaction.py:autocommit"]}
{"id": "C129", "title": "Falsy objects are stored like all others", "statement": "0, empty texts and lists and objects that are false in a condition may be stored. In a non-strict container made by Container.new, after every history of write, delete, resize and condense, has(id) and delete(id) are exact for all objects; read(id) gives the latest object if it is truthy, and otherwise the default or an object written under the id before (the default if there is one group). A database made by ContainerDb.new behaves after every history exactly like a transactional map of all objects, except that read, [] and the answer of update give None for a falsy object: [] of its id raises no KeyError, create refuses it, delete returns it.", "quantifier": "every capacity, history of calls and of session events, ids, objects", "why_tests_cant": "The interplay of falsy objects with all histories, groups and crash points.", "anchors": ["citrine/storage/container.py:Container.read", "citrine/storage/container.py:Container.has", "citrine/storage/container.py:Container.delete", "citrine/connection/container_connection.py:ContainerConnection"]}
{"id": "C130", "title": "Threads can share a connection", "statement": "Several threads may use one ContainerConnection: a create, update or delete that returned with autocommit on is stored; changes made in a with block are seen by no other thread before it ends, are all stored if it ends normally and all undone if it ends with an exception; conn.autocommit says whether the calls of the thread that asks are committed. Threads that take turns (whole calls and whole with blocks) each have their own session on one stored map.", "quantifier": "every schedule of calls and blocks of any number of threads, ids, objects, commit failures, crash points", "why_tests_cant": "Unboundedly many interleavings of threads, with failing commits and crashes.", "anchors": ["citrine/storage/transaction.py:ThreadTransactionManager", "citrine/connection/container_connection.py:ContainerConnection", "citrine/storage/transaction.py:autocommit"]}
{"id": "C131", "title": "The figures of a connection are right at all times", "statement": "For a connection to a database made by ContainerDb.new, after every session of calls, with blocks, failing commits, aborts and crashes, strict or not: capacity is what it was at the beginning and at least the capacity asked for (equal up to 5000), used is the number of ids for which conn[id] raises no KeyError (and the number of ids of the transactional map, if strict is never turned on), usage is used / capacity and status the alert level of the fullest collection. If strict has been turned on and committed in the new database and is not turned off, strict stays True and used never exceeds capacity.", "quantifier": "every capacity, session, id, object, commit failure and crash point", "why_tests_cant": "Counts must agree with the contents after every history.", "anchors": ["citrine/connection/container_connection.py:ContainerConnectionMeta", "citrine/connection/container_connection.py:ContainerConnectionProperties", "citrine/storage/container.py:ContainerMeta"]}
{"id": "C132", "title": "Loading leaves the document as it is and shares only contexts with it", "statement": "from_json(document) changes nothing that existed before the call, whether it returns or raises: not the dictionary it is given, not the lists and dictionaries in it, and not objects loaded earlier (class constructors being assumed to change nothing). The object it returns, and everything that can be reached from it, is new or is (part of) the @context of some dictionary of the document; the context itself is shared, not copied: obj.acontext is the document's @context object, also for nested objects without a context of their own and for objects loaded later from the same document. Following references instead of contents gives the same results: for a document within the interpreter's recursion limit the outcome is that of the model on document trees.", "quantifier": "all documents in memory (any sharing between their parts, any nesting), all registries, property lists and expansions, all constructors that make new objects from their arguments, all recursion limits, successful and failing loads", "why_tests_cant": "a test compares one document before and after; that no part of any document is changed or handed out needs an argument over all nestings, aliasings and failure points", "anchors": ["jsonld/engine/json_input.py:PropertyJsonIntake.from_json", "jsonld/engine/json_input.py:PropertyJsonIntake._unpack_objects", "jsonld/jsonld.py:PropertyJsonLD.acontext"]}
{"id": "C133", "title": "Which properties follow Links when read", "statement": "For every bundled property: if it can refer to things by Links (Link is in its range in the W3C recommendation, or it is orderedItems, unorderedItems or replies), reading it requests the address of the stored Link exactly once and gives the object found there, or the Link if fetching or building fails; a text that is an address is stored as a Link to it; its JSON form has the addresses in place of the Links. Every other property gives what is stored without any request and stores texts as they are (dates apart). Whatever is stored that is not itself of the class Link (objects, lists of Links, Mentions) is given as it is, without a request.", "quantifier": "all 64 bundled properties, all object states, all network behaviours and engines, all texts", "why_tests_cant": "a test reads some properties of some objects on one network; a property whose decorator is missing or that asks the network without need is only found by covering all of them", "anchors": ["activitystreams/properties.py", "activitystreams/models.py:Link.expand", "activitystreams/models.py:Link.from_str", "activitystreams/models.py:Link.href_only"]}
{"id": "C134", "title": "What assigning and reading a property copies and shares", "statement": "Assigning a value to a bundled property changes nothing but that property of that object, and nothing at all if the setter raises. What is stored is the value with every list, tuple and set copied into a new list at every level, everything else the very same object (dictionaries are shared with the caller), except that texts and dictionaries may have become new Links. So later changes to the caller's lists do not show in the property, later changes to a dictionary do. Reading gives the stored list itself: what is done to it in place is done to the property without any check, so an object may come to hold a value its setter refuses. Constructors that make an object and assign their arguments change nothing that existed, and the object is made of the arguments and of new objects. Seen by contents, what is stored or raised is what the model on contents says.", "quantifier": "all bundled properties, all values nested in any way (also shared and cyclic ones, within the recursion limit), all memories, all objects", "why_tests_cant": "aliasing is a relation between all objects of a program; a test can check some later change of some list", "anchors": ["jsonld/tools/type.py:evaluate_value", "activitystreams/models.py:Link.from_str", "activitystreams/properties.py", "jsonld/tools/datetime.py:parse_activitystream_datetime"]}
{"id": "C135", "title": "data() makes new lists and dictionaries only", "statement": "obj.data(...) changes no object, list or dictionary, whether it returns or raises. Its result is a dictionary, and every list and dictionary in it, at every depth and also in the context, is new: it is in neither the object, nor anything else that existed, nor the result of another call. So a caller may change the result as it likes without changing any object. Seen by contents, the result is what the model on contents says.", "quantifier": "all memories (values shared, nested and cyclic in any way, within the recursion limit), all objects, all arguments include, exclude, rename, include_none, reject_values", "why_tests_cant": "aliasing relates all objects of a program, at every depth", "anchors": ["jsonld/jsonld.py:PropertyJsonLD.data"]}
{"id": "C136", "title": "Programs with with-blocks do what they say, also with blocks inside blocks", "statement": "A program that uses a connection (calls, reads that decide how it goes on, exceptions, try/except, `with conn:` blocks) has the effect of the same program on a map: calls outside of blocks are stored one by one, a block stores all its changes when it ends normally and nothing when an exception leaves it, and a block inside a block belongs to the outer one; a crash leaves one of the states stored on the way. (False of the code for blocks inside blocks: entering the inner block throws away what the outer one did, the end of the inner one stores its changes for good, and what comes after it in the outer block is stored call by call.)", "quantifier": "All programs (of any size and nesting, with decisions on what was read), all containers in use, all outcomes of commits.", "why_tests_cant": "The programs are unbounded and branch on what they read; a test runs one program on one database.", "anchors": ["citrine/connection/container_connection.py:ContainerConnection.__enter__", "citrine/connection/container_connection.py:ContainerConnection.__exit__", "citrine/storage/transaction.py:TransactionManager", "citrine/storage/transaction.py:autocommit"]}
{"id": "C137", "title": "Walks through the social graph", "statement": "Loading a document and constructing objects make no request; what is loaded does not depend on the network. An expression of property reads and list subscripts on loaded objects (a.b[0].c) leads to what the objects hold, where a Link held directly by a property that can refer to things by Links is replaced by the object the engine makes of the document at its address, if there is one, and stays a Link otherwise. Exactly the addresses of the Links passed in this way are asked for, in the order of the expression, each once, so at most one for each property read that can hold Links. The result is part of the start object or of an object found at one of these addresses. An expression fails at the first step that cannot be made, with the exception of that step and the requests made until then.", "quantifier": "All environments, networks and class registries, all documents, all objects of the vocabulary (with any nesting), all expressions of any length.", "why_tests_cant": "All graphs of documents and all paths through them.", "anchors": ["activitystreams/models.py:Link.get", "activitystreams/models.py:Link.expand", "activitystreams/properties.py", "jsonld/engine/json_input.py:PropertyJsonIntake.from_json", "README.md"]}
{"id": "C138", "title": "The walk of the README", "statement": "outbox.first.orderedItems[i].object.published, for a loaded outbox whose first is the address of a document with ordered items, gives the date of the object of item i as a datetime; Links are opened as the next node whenever there is something at their address, and a Link is presented otherwise. (False of the code for items given as addresses: Links in lists are not opened, so the expression raises AttributeError.)", "quantifier": "All documents of these kinds (of any class with these properties), all positions, all networks, all behaviours of JSON-LD expansion.", "why_tests_cant": "All documents and networks.", "anchors": ["README.md", "activitystreams/models.py:Link.expand", "activitystreams/models.py:Link.from_str", "jsonld/engine/json_input.py:PropertyJsonIntake.from_json", "activitystreams/properties.py"]}
{"id": "C139", "title": "Headers and result of jsonld_get", "statement": "jsonld_get(url, headers, json) makes one request in which every header the caller gives has the value the caller gave (None: not sent), in whatever case its name is written, Accept asks for JSON-LD if the caller says nothing about it, and all other headers are those of the session; it returns the data of a successful response, or the response itself with json=False, and raises what the request or the decoding raises.", "quantifier": "all caller header dictionaries, session headers, networks, addresses and responses of any status", "why_tests_cant": "The merge of two case-sensitive dictionaries into a case-insensitive one depends on the order and spelling of every header a caller may give; a test sends a few dictionaries.", "anchors": ["jsonld/utils.py:DEFAULT_HEADERS", "jsonld/utils.py:jsonld_get", "jsonld/tools/url.py:jsonld_get"]}
{"id": "C140", "title": "The text of an object is JSON and reads back", "statement": "obj.json(minified, indent, ...) is a JSON text, of ASCII characters only, that means exactly obj.data(...) with the same arguments whatever the layout; no minified text is longer than the others; from_json accepts exactly the JSON texts of dictionaries (repeated keys: the last counts), takes every spelling of the same data alike, raises ValueError on a text that is no JSON and AttributeError on one that is no dictionary; and from_json(obj.json(...)) is equal to obj. (False of the code for NaN and infinite numbers, which are written as names that JSON does not have, and for dictionaries with keys like 1 and \"1\", which collide in the text; the round trip has the limits of C88.)", "quantifier": "all objects, values of any depth, texts with any characters, layouts, spellings of JSON texts and texts that are no JSON", "why_tests_cant": "JSON has unboundedly many texts and spellings of each value; a test reads and writes a few.", "anchors": ["jsonld/jsonld.py:PropertyJsonLD.json", "jsonld/engine/json_input.py:PropertyJsonIntake.from_json"]}
{"id": "C141", "title": "The examples of the README, as texts", "statement": "For every class of the package that takes an id, Cls(id).json(...) is, in every layout, a JSON text with the id, the ActivityStreams context, the type of the class (not for Object) and a zero for each number of a collection, and with nothing else; Object(id) succeeds for every text that the check of addresses does not raise on. With the shipped engine, from_json of any spelling of a document of a type of the package, if it gives anything, gives an object of that class with the type and the id of the document; and outbox.first.orderedItems[i].object.published is the parsed date when the outbox and the page are given as texts in any spelling. (With the limits of C81 and C138: the page has to be typed as an ordered collection or page, the objects have to load.)", "quantifier": "all classes of the package, ids, layouts, spellings of documents, networks, outboxes, pages and positions on a page", "why_tests_cant": "Documents have unboundedly many spellings and contents; a test runs the three examples.", "anchors": ["README.md", "activitystreams/models.py:Object", "jsonld/jsonld.py:PropertyJsonLD.json", "jsonld/engine/json_input.py:PropertyJsonIntake.from_json"]}
{"id": "C142", "title": "The JSON of a new object shows what its constructor was given", "statement": "For every ActivityStreams class of the package but Object and Link and all constructor arguments made of texts, numbers, booleans, Links, dates, durations, objects and lists or tuples of these: whenever the constructor returns, obj.json() in every layout is a JSON text of an object that has, for each property given a value, what JSON is to show of that value (texts and numbers as they are, booleans as the texts True and False, Links by their address, dates and durations in their ActivityStreams form, other objects as they are written on their own but without the context), the given @context, the type of the class, zero for numbers of collections that were not given, and no other member. The claim is false for the ActivityStreams property context, which is never written, and for the properties that constructors lose.", "quantifier": "all packaged classes but Object and Link, all keyword arguments of the named shapes, all layouts of json.dumps, all registries whose Link constructor makes Links", "why_tests_cant": "There are unboundedly many argument values and combinations (nested lists, objects inside objects, tuples) for more than fifty classes; the claim also says that no other member is ever written.", "anchors": ["activitystreams/models.py:Object", "activitystreams/properties.py", "jsonld/jsonld.py:PropertyJsonLD.json", "jsonld/jsonld.py:PropertyJsonLD.data"]}
{"id": "C143", "title": "A package lists ancestors first, and a subclass hides an ancestor of the same namespace", "statement": "For every class hierarchy Python accepts and all lists of object and property classes (any order, repetitions allowed): package.objects and package.properties list each class once, ordered by the number of listed ancestors and, where that is equal, in the order given, so no class is listed before one of its ancestors; package[namespace] is the property class of that namespace that is listed last, otherwise the object class of that namespace that is listed last, and None iff no class has it; in particular a listed subclass with the namespace of its ancestor hides the ancestor.", "quantifier": "all class hierarchies accepted by Python, all lists of classes, all namespaces", "why_tests_cant": "The order depends on the whole hierarchy and on the order of the arguments; there are unboundedly many of both.", "anchors": ["jsonld/kamino.py:ClassCloner.clone_classes", "jsonld/package.py:JsonLdPackage.__init__", "jsonld/package.py:JsonLdPackage.__getitem__"]}
{"id": "C144", "title": "Walks through a network that changes", "statement": "For every packaged object, every expression of attribute reads and item accesses on it, and every network whose answers may change from request to request: each step leads where it would lead in the network as it is at that moment (a Link is replaced by the object then found at its address, or stays a Link), makes at most one request, and a step that cannot be made raises the exception for that step; the whole walk equals a walk through any fixed network that gives the answers it got, and such a network exists if no address is asked for twice. Nothing is remembered between reads: reading the same property twice asks the network twice and gives what it has each time.", "quantifier": "all objects, all walks and sequences of walks, all histories of answers of the network", "why_tests_cant": "It quantifies over all sequences of answers of the network and all expressions; tests use one stubbed network.", "anchors": ["activitystreams/models.py:Link.get", "activitystreams/models.py:Link.expand", "activitystreams/properties.py", "README.md"]}
{"id": "C145", "title": "stringify gives plain data, once and for all", "statement": "jsonld.engine.utils.stringify turns any nest of lists, tuples, sets, dicts and objects into texts, numbers, lists and dicts with text or number keys; members keep their order; stringifying the result again changes nothing. It succeeds exactly when every object has a text and no dict has a tuple as a key; otherwise the error is that TypeError or the one raised by the object. When no two keys of a dict have the same text every entry is kept in its place; when they do, the last one wins. Each entry of PROPERTY_TRANSFORM_MAP converts the attribute it is named after (an error of a special entry is the error of a lookup or of the conversion), and the table has an entry for every property of the vocabulary.", "quantifier": "every finite nest of values of every class, every dict with any keys, every object and property name", "why_tests_cant": "Nests of containers and sets of colliding keys are unbounded; tests try a few.", "anchors": ["jsonld/engine/utils.py:stringify", "jsonld/engine/utils.py:stringify_iterable", "jsonld/engine/utils.py:stringify_dict", "jsonld/engine/utils.py:PROPERTY_TRANSFORM_MAP"]}
{"id": "C146", "title": "Reorganising with a transaction manager commits one action at a time", "statement": "With a transaction manager, condense commits once for every object in the groups other than the primary one, and once more for dropping these groups when transfer is set; resize commits once for the new primary group, once for every object it moves (all objects with condense=True, those of the old primary group without) and once more when transfer is set. If condense raises it has committed less often than there were objects to move. So each action is a transaction of its own: every state stored differs from the one stored before by one object that was moved, or by the list of groups only.", "quantifier": "every reachable container with its primary group first (resize with condense=True: every reachable container), every number and distribution of objects, all sizes and flags, every pattern of commits that take effect (the last sentence: when all of them do)", "why_tests_cant": "The unit tests count the commits of a mock manager for a few containers; the number of groups, of objects and of commits is unbounded.", "anchors": ["citrine/storage/container.py:Container.condense", "citrine/storage/container.py:Container.resize"]}
{"id": "C147", "title": "A module tells its size, and asking changes nothing", "statement": "DbModule.size gives the number of objects in the module's database, group.size their sum, and a DbModuleRegistry made from a module shows its path, name and size as of the last update. Asking for the size changes nothing that is stored or that an open connection sees, leaves no connection open, and does not disturb a with-db block that is going on. (False of the code: a ContainerConnection has no attribute size, so module.size, the size of every group with such a module and from_dbmodule raise AttributeError; and inside a with-db block the question makes the end of the block leave its connection open.)", "quantifier": "every history of the database and its connections, every sequence of updates of a record", "why_tests_cant": "Ranges over all histories of a database; the package has no test of modules.", "anchors": ["citrine/cluster_tools/dbmodule/dbmodule.py:DbModule.size", "citrine/cluster_tools/dbmodule/dbmodule.py:DbModuleRegistry", "citrine/connection/container_connection.py:ContainerConnectionProperties", "citrine/database/containerdb.py:ContainerDb.__enter__"]}
{"id": "C148", "title": "Reorganising with a transaction manager while other sessions work", "statement": "While a session runs condense (or resize with condense=True) with a transaction manager, other sessions may create, update and delete objects between its transactions. Whether the call succeeds or raises, what is stored at its end is what was stored at its beginning changed by the others' successful calls in their order; if it succeeds, the primary group holds all objects (and with transfer is the only group left). At every moment in between (so also if the session's process dies there, and the others go on) what is stored reads as the map at the beginning changed by the others' calls that have gone through by then. It raises only if the primary group is limited, or KeyError if another session has deleted an object that was in another group at the beginning. (With transfer=False an object that another session deletes comes back as None, so there the claim holds only if the others delete nothing.)", "quantifier": "all containers reachable through the API whose primary group comes first, all histories of calls of other sessions between the transactions, all crash points, all choices of which explicit commits take effect, all sizes", "why_tests_cant": "the others' calls can come between any two of arbitrarily many commits; a test exercises a few schedules on a few objects", "anchors": ["citrine/storage/container.py: Container.condense, Container.resize", "citrine/storage/transaction.py: TransactionManager, autocommit", "citrine/connection/container_connection.py: create, update, delete"]}
{"id": "C149", "title": "A conflict means that another session got through", "statement": "A commit that the storage does not refuse raises a conflict only if another session's commit was stored since the transaction began: a transaction (calls and resizes, in a with block or a single call with autocommit) during which no other session's commit returns always gets stored, answers what its calls answer when nobody else is there, and leaves exactly what they leave. So retrying makes progress: in every history the number of conflicts a session has run into is at most the number of commits (calls) of other sessions that succeeded.", "quantifier": "all databases made by Container.new and used in any way, strict or not, any number of sessions, all schedules of begin, calls, resize, commit, abort, all refusals by the storage, all interleavings of the steps of autocommitted calls", "why_tests_cant": "progress is about every schedule and every number of retries; a test runs a few", "anchors": ["citrine/storage/transaction.py: TransactionManager, autocommit", "citrine/connection/container_connection.py: create, update, delete", "citrine/database/containerdb.py: ContainerDb.connect", "citrine/storage/container.py: Container.resize"]}
{"id": "C150", "title": "Processes that die while several sessions work lose no call that returned", "statement": "Sessions in any number of processes call create, update and delete with autocommit on one database. At any moments any of the processes, or all of them with the machine, die and come back; the commit of a call that was cut off may have been written or not. At every moment what is stored is the result of all the calls that have returned (with the answers they gave) and of some of those that were cut off, one after the other in an order that respects time: no call that returned is lost, none is done by halves, a call that was cut off counts at most once and at a moment before its session is back. A session that is back is idle and sees what is stored; the sessions of the other processes see what they saw and go on.", "quantifier": "all databases made by Container.new and used in any way, not strict, truthy objects, any number of sessions and processes, all interleavings of the steps of the calls, all crash points, all subsets of dying processes, all subsets of their commits written, in every order, crashes after crashes", "why_tests_cant": "a test crashes at a few chosen points of one schedule; the claim ranges over every interleaving, every crash point in it and every set of commits that were still written", "anchors": ["citrine/storage/transaction.py: autocommit, TransactionManager", "citrine/connection/container_connection.py: ContainerConnection.create, update, delete", "citrine/database/containerdb.py: ContainerDb", "citrine/client/container_client.py: ContainerClient"]}
{"id": "C151", "title": "A block is done completely or not at all when processes die among other sessions", "statement": "Sessions of any number of processes work with with-blocks and single calls on one database; any of the processes die at any moments, in the middle of a block or while committing, and come back. If a process dies before its block ended, nothing of the block is stored; if it dies while the block is being committed, everything of it is stored (on top of what the others have stored meanwhile, and only if nobody has changed an id that it has changed) or nothing. Sessions of other processes see what they saw, keep their unfinished blocks and can commit them; a session that is back sees what is stored. Step by step the database is one map shared by transactions, of which a crash drops those of the dead processes only.", "quantifier": "all databases made by Container.new and used in any way, not strict, truthy objects, any number of sessions, all schedules of begin, calls, commits and aborts, all refusals by the storage, all sets of dying processes at all moments, all subsets of their commits written in every order", "why_tests_cant": "every interleaving of blocks of several processes with every crash point; a test takes one", "anchors": ["citrine/storage/transaction.py: TransactionManager.__enter__, __exit__", "citrine/connection/container_connection.py: ContainerConnection.create, update, delete", "citrine/database/containerdb.py: ContainerDb", "citrine/client/container_client.py: ContainerClient"]}
{"id": "C152", "title": "Refused urls are never requested, and link headers are followed as documented", "statement": "A document loader asks the network for the url it was called with, once, if the url is acceptable (http(s), a host beginning with an allowed character, https only for a secure loader) and for nothing otherwise; in no history of loads by any mixture of loaders sharing the cache does a secure loader send a request that is not https. Several alternate links make a load fail; a single one announcing JSON-LD changes the noted type and url (not the body) if the response is not JSON, every other changes nothing, and the context url depends on the context link alone.", "quantifier": "every url, every behaviour of the network, every response and link header, every history of loads by any loaders", "why_tests_cant": "Unbounded histories, all urls and all responses.", "anchors": ["jsonld/docloader.py:RequestsJsonLoader.get", "jsonld/docloader.py:CachedRequestsJsonLoader"]}
{"id": "C153", "title": "Objects kept in a database as JSON text come back", "statement": "The text of an object, saved under an id by an autocommitted update or inside a with-block that ends normally, is what read gives for that id after every further history that does not change the id, including calls on other ids, blocks, aborts, refused commits and crashes, and from_json of it is an object equal to the one saved.", "quantifier": "every object whose values come back (C88), every layout of the text, every capacity and options of the database, every history before and after saving", "why_tests_cant": "Unbounded histories with crashes and all objects.", "anchors": ["citrine/connection/container_connection.py", "citrine/database/containerdb.py", "jsonld/jsonld.py", "jsonld/engine/json_input.py"]}
{"id": "C154", "title": "engine.Name is the class of that name", "statement": "A class of a package that an engine registered is an attribute of the engine under its class name (engine.Object(...) in the README). The registered classes are, for each namespace, the first class that has it; of several registered classes of one name the attribute is the last one. With distinct names and namespaces every class is the attribute of its name, and nothing else is an attribute. For the shipped ActivityStreams package the attributes are exactly the classes of the vocabulary, Object and Link included, although the engine does not find those two when it loads documents.", "quantifier": "every package with any number of classes with any names and namespaces; every class of the shipped package", "why_tests_cant": "Packages are unbounded; for the shipped one the namespaces of classes are overwritten with the texts of property objects while it is linked, which are different in every process.", "anchors": ["jsonld/engine/jsonld_engine.py:JsonLdEngine", "activitystreams/package.py:create_package", "README.md"]}
{"id": "C155", "title": "A database with strict mode is a transactional map with limits", "statement": "A database made by ContainerDb.new (any positive capacity) and used through a ContainerConnection behaves, after every history of create, update, delete, assignments to strict, with-blocks, commits, aborts, autocommit switches, failing commits and crashes, exactly like a transactional map with limits. Every id belongs to one of n slots; while strict is on, a new id is refused with GroupCapacityError if the database holds n times the slot size many ids and otherwise with CollectionCapacityError if its slot holds at least the slot size many ids; an id in use is refused with CollectionCapacityError if its slot is that full, and otherwise with GroupCapacityError if the database holds more than n times the slot size many ids; nothing else is refused (create of an existing id apart). A refused call changes nothing. Assigning strict is never committed by itself, even with autocommit on: it stays pending until a commit, and is lost by an abort, the start of a block, the next committed write or a crash. Objects are truthy.", "quantifier": "every capacity, every initial content of the file, every history of events, every id and object", "why_tests_cant": "Refinement over all histories, with crash points, failing commits and changes of the mode; the refusals depend on which ids share a slot.", "anchors": ["citrine/connection/container_connection.py:ContainerConnection", "citrine/database/containerdb.py:ContainerDb.new", "citrine/storage/container.py:Container.write", "citrine/storage/group.py:Group.insert", "citrine/storage/collection.py:Collection.insert", "citrine/storage/transaction.py:autocommit"]}
{"id": "C156", "title": "No client can tell a database from a transactional map with limits", "statement": "Take any program that uses a ContainerConnection to a database made by ContainerDb.new (any positive capacity): it may create, read, update and delete, use [] with an id, an iterable or anything else, read and assign strict and autocommit, ask for capacity, used, usage and status, use with blocks (in one another too), commit and abort, catch every exception, crash and reopen, and decide what to do next by everything it got back so far, for ever. It gets back exactly, value for value and exception for exception, what a plain map with slots, a strict flag and a transaction (the specification) gives: so the whole documented interface depends on nothing but the stored ids and objects, the limits and the flags. Objects are truthy.", "quantifier": "every capacity, every initial content of the file, every client (a function from all replies so far to the next request), every number of requests, every acceptance or refusal of commits, every crash point", "why_tests_cant": "The clients are unbounded and adaptive; a test is one of them.", "anchors": ["citrine/connection/container_connection.py:ContainerConnection", "citrine/connection/container_connection.py:ContainerConnectionProperties", "citrine/connection/container_connection.py:ContainerConnectionMeta", "citrine/database/containerdb.py:ContainerDb.new", "citrine/storage/transaction.py:TransactionManager", "citrine/storage/container.py:Container", "citrine/storage/group.py:Group", "citrine/storage/collection.py:Collection"]}
{"id": "C157", "title": "Sessions on one database share a map with limits, exactly", "statement": "Several sessions on one database with one group, in strict mode or not, behave for every schedule of begins, creates, updates, deletes, assignments to strict, commits and aborts exactly like transactions on one map with limits under snapshot isolation. Each transaction sees the ids, objects and strict flag stored when it began with its own changes on top; whether a write is refused, and with which error, depends on that view alone (as in C155), not on what others have stored since. A commit raises, and changes nothing, exactly if an id it changed was changed by others since it began, or it changed the flag and others did too, or the storage refuses; otherwise it stores exactly its changes. So objects written by sessions that do not see each other add up beyond the limits, and who begins afterwards is refused. The answer to every move is determined. Objects are truthy.", "quantifier": "every capacity and size, strict mode on or off at the start, every number of sessions, every schedule, every id and object, every moment at which the storage refuses a commit", "why_tests_cant": "Quantifies over all interleavings of any number of sessions together with changes of the mode and the fullness of every slot.", "anchors": ["citrine/database/containerdb.py:ContainerDb.open", "citrine/storage/transaction.py:TransactionManager", "citrine/connection/container_connection.py:ContainerConnection", "citrine/storage/group.py:Group.insert", "citrine/storage/collection.py:Collection.insert"]}
{"id": "C158", "title": "By how much several sessions can exceed the strict limits", "statement": "If a database in strict mode, no collection of which is over-full, is used by k sessions that do not turn strict mode off, then whatever the order of their begins, calls, commits and aborts no collection ever stores more than k times its size, and the whole database never more than k times the number of objects it is made for (with one session: the limits hold). The bound for a collection is reached: k sessions that have all begun before the first commit can each store a full collection of new ids, all of which belong to the same collection.", "quantifier": "every number of sessions, every schedule, every strict container with one group, every id and object", "why_tests_cant": "A bound over all interleavings of any number of sessions; the invariant (who owns which id) cannot be observed.", "anchors": ["citrine/database/containerdb.py:ContainerDb.open", "citrine/storage/transaction.py:TransactionManager", "citrine/storage/group.py:Group.insert", "citrine/storage/collection.py:Collection.insert"]}
{"id": "C159", "title": "Programs that share a database cannot tell it from a shared map with limits", "statement": "Any number of programs, each with its own connection to one database with one group (strict mode on or off, assigned at will), each deciding by everything it got back so far what to do next: begin, create, update, delete, assign strict, commit, abort, read, use [], ask for strict, capacity, used, usage and status. For every order in which they get to run, every refusal of a commit by the storage and every moment at which everything dies and is opened again, every program gets back, value for value and exception for exception, what a plain map with slots and a strict flag, shared by transactions under snapshot isolation, gives. So nothing a program can observe depends on anything but the stored ids and objects, the flag, the limits and the order of commits. Objects are truthy.", "quantifier": "every capacity and size, every initial content, every family of programs (functions from all replies so far to the next request), every schedule, every acceptance or refusal of commits, every crash point", "why_tests_cant": "The programs are unbounded and adaptive and their interleavings arbitrary; a test is one schedule of some of them.", "anchors": ["citrine/connection/container_connection.py:ContainerConnection", "citrine/connection/container_connection.py:ContainerConnectionProperties", "citrine/connection/container_connection.py:ContainerConnectionMeta", "citrine/database/containerdb.py:ContainerDb.open", "citrine/storage/transaction.py:TransactionManager", "citrine/storage/container.py:Container", "citrine/storage/group.py:Group", "citrine/storage/collection.py:Collection"]}
