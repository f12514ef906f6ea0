{
 "claims": [
  {
   "property": "C01",
   "status": "proved",
   "theorems": [
    "Verif.Props.numberOfCollections_correct",
    "Verif.Props.numberOfCollections_prime",
    "Verif.Props.numberOfCollections_error",
    "Verif.Props.nextNumberOfCollections_correct"
   ],
   "note": ""
  },
  {
   "property": "C02",
   "status": "proved",
   "theorems": [
    "Verif.Props.isPrime_correct",
    "Verif.Props.isPrime_rounding",
    "Verif.Props.isPrime_small"
   ],
   "note": ""
  },
  {
   "property": "C05",
   "status": "proved",
   "theorems": [
    "Verif.Props.collection_refines_map",
    "Verif.Props.collection_call_refines_map",
    "Verif.Props.collection_error_no_effect",
    "Verif.Props.collection_size_has"
   ],
   "note": ""
  },
  {
   "property": "C06",
   "status": "proved",
   "theorems": [
    "Verif.Props.collection_views",
    "Verif.Props.collection_range",
    "Verif.Props.collection_values"
   ],
   "note": ""
  },
  {
   "property": "C07",
   "status": "proved",
   "theorems": [
    "Verif.Props.collection_minKey",
    "Verif.Props.collection_maxKey",
    "Verif.Props.collection_popitem"
   ],
   "note": ""
  },
  {
   "property": "C08",
   "status": "partial",
   "theorems": [
    "Verif.Props.collection_strict_limit_partial",
    "Verif.Props.collection_default_limit_partial",
    "Verif.Props.collection_strict_refuses",
    "Verif.Props.collection_strict_limit_counterexample"
   ],
   "note": "False of the code for setdefault, which ignores the limit (counterexample proved); proved for all other calls."
  },
  {
   "property": "C04",
   "status": "proved",
   "theorems": [
    "Verif.Props.routing_total",
    "Verif.Props.routing_surjective",
    "Verif.Props.routing_insert",
    "Verif.Props.routing_composite_counterexample"
   ],
   "note": ""
  },
  {
   "property": "C10",
   "status": "proved",
   "theorems": [
    "Verif.Props.status_exact",
    "Verif.Props.status_monotone",
    "Verif.Props.collection_status",
    "Verif.Props.group_status"
   ],
   "note": ""
  },
  {
   "property": "C11",
   "status": "proved",
   "theorems": [
    "Verif.Props.group_refines_map",
    "Verif.Props.group_call_refines_map",
    "Verif.Props.group_get_has",
    "Verif.Props.group_views"
   ],
   "note": ""
  },
  {
   "property": "C13",
   "status": "partial",
   "theorems": [
    "Verif.Props.group_iterkeys_partial",
    "Verif.Props.group_iterkeys_empty_id",
    "Verif.Props.group_iterkeys_counterexample"
   ],
   "note": "False when the empty id is stored and no other collection has a key in bounds; proved otherwise, and the exact behaviour in that case is proved too."
  },
  {
   "property": "C14",
   "status": "partial",
   "theorems": [
    "Verif.Props.group_iteritems_partial",
    "Verif.Props.group_iteritems_empty_id",
    "Verif.Props.group_iteritems_counterexample"
   ],
   "note": "As C13."
  },
  {
   "property": "C15",
   "status": "partial",
   "theorems": [
    "Verif.Props.group_itervalues_partial",
    "Verif.Props.group_itervalues_counterexample"
   ],
   "note": "False with falsy values; proved for truthy values."
  },
  {
   "property": "C16",
   "status": "proved",
   "theorems": [
    "Verif.Props.group_byValue",
    "Verif.Props.collection_byValue"
   ],
   "note": ""
  },
  {
   "property": "C17",
   "status": "partial",
   "theorems": [
    "Verif.Props.group_minKey_partial",
    "Verif.Props.group_maxKey_partial",
    "Verif.Props.group_popitem_partial",
    "Verif.Props.group_minKey_counterexample",
    "Verif.Props.group_no_collections"
   ],
   "note": "False when some collection has no key in bounds (ValueError); the exact condition is proved."
  },
  {
   "property": "C18",
   "status": "partial",
   "theorems": [
    "Verif.Props.group_strict_limit_partial",
    "Verif.Props.group_insert_refuses",
    "Verif.Props.group_strict_limit_counterexample"
   ],
   "note": "False for setdefault; proved for every other call."
  },
  {
   "property": "C19",
   "status": "partial",
   "theorems": [
    "Verif.Props.group_error_no_effect_partial",
    "Verif.Props.group_update_error_partial",
    "Verif.Props.group_update_atomic_counterexample"
   ],
   "note": "False for update with CollectionCapacityError."
  },
  {
   "property": "C20",
   "status": "partial",
   "theorems": [
    "Verif.Props.group_new",
    "Verif.Props.group_new_custom",
    "Verif.Props.group_new_custom_errors",
    "Verif.Props.group_new_strict_counterexample"
   ],
   "note": "The strict argument is ignored by the code."
  },
  {
   "property": "C09",
   "status": "partial",
   "theorems": [
    "Verif.Props.collection_reinsert_counterexample",
    "Verif.Props.collection_update_existing_partial",
    "Verif.Props.group_reinsert_counterexample",
    "Verif.Props.group_update_existing_partial",
    "Verif.Props.container_rewrite_counterexample",
    "Verif.Props.container_rewrite_partial"
   ],
   "note": "False of the code for insert and Container.write (counterexamples proved at collection, group and container level); proved for update, and for Container.write when the target collection has room."
  },
  {
   "property": "C12",
   "status": "proved",
   "theorems": [
    "Verif.Props.group_size",
    "Verif.Props.group_maxSize",
    "Verif.Props.container_sizes",
    "Verif.Props.container_size_single"
   ],
   "note": ""
  },
  {
   "property": "C21",
   "status": "proved",
   "theorems": [
    "Verif.Props.group_setStrict",
    "Verif.Props.container_setStrict"
   ],
   "note": ""
  },
  {
   "property": "C03",
   "status": "proved",
   "theorems": [
    "Verif.Props.container_new",
    "Verif.Props.container_new_errors"
   ],
   "note": ""
  },
  {
   "property": "C23",
   "status": "partial",
   "theorems": [
    "Verif.Props.container_write_partial",
    "Verif.Props.container_write_counterexample"
   ],
   "note": "Needs the primary group first in group order; false otherwise (counterexample)."
  },
  {
   "property": "C24",
   "status": "partial",
   "theorems": [
    "Verif.Props.container_delete_partial",
    "Verif.Props.container_delete_error",
    "Verif.Props.container_delete_counterexample"
   ],
   "note": "delete raises KeyError unless the groups holding the id come first; exact condition proved."
  },
  {
   "property": "C25",
   "status": "partial",
   "theorems": [
    "Verif.Props.container_read_partial",
    "Verif.Props.container_read_truthy",
    "Verif.Props.container_read_counterexample"
   ],
   "note": "False for falsy stored objects; proved for truthy ones."
  },
  {
   "property": "C26",
   "status": "partial",
   "theorems": [
    "Verif.Props.container_condense_partial",
    "Verif.Props.container_condense_copy_partial",
    "Verif.Props.container_condense_counterexample"
   ],
   "note": "Needs the primary group first (always so after new/resize)."
  },
  {
   "property": "C28",
   "status": "proved",
   "theorems": [
    "Verif.Props.container_resize",
    "Verif.Props.resize_spec"
   ],
   "note": ""
  },
  {
   "property": "C30",
   "status": "partial",
   "theorems": [
    "Verif.Props.container_resize_counterexample",
    "Verif.Props.container_resize_strict_partial"
   ],
   "note": "False of the code: resize never refuses a small capacity and always leaves the container non-strict (proved for every container); only the non-strict mode is kept."
  },
  {
   "property": "C32",
   "status": "proved",
   "theorems": [
    "Verif.Props.container_strict_limit"
   ],
   "note": ""
  },
  {
   "property": "C27",
   "status": "partial",
   "theorems": [
    "Verif.Props.container_condense_crash_partial",
    "Verif.Props.container_condense_tx_result",
    "Verif.Props.container_condense_counterexample"
   ],
   "note": "Needs the primary group first (always so after new/resize)."
  },
  {
   "property": "C29",
   "status": "partial",
   "theorems": [
    "Verif.Props.container_resize_crash_partial",
    "Verif.Props.container_resize_crash_counterexample",
    "Verif.Props.container_resize_loss",
    "Verif.Props.container_resize_duplicates"
   ],
   "note": "False for condense=False, transfer=True with two or more groups: the other groups are lost on disk (proved for all such containers)."
  },
  {
   "property": "C31",
   "status": "partial",
   "theorems": [
    "Verif.Props.container_condense_strict_counterexample",
    "Verif.Props.container_condense_failure_partial",
    "Verif.Props.container_condense_crash_partial"
   ],
   "note": "Without a transaction manager the id being moved is lost on failure (counterexample), all other ids keep their values; with a transaction manager nothing is lost."
  },
  {
   "property": "C33",
   "status": "partial",
   "theorems": [
    "Verif.Props.connection_create_overwrite",
    "Verif.Props.connection_create_new_partial",
    "Verif.Props.connection_primary_listed",
    "Verif.Props.connection_create_counterexample"
   ],
   "note": "Refusal to overwrite proved in full; storing a new id needs the primary group to be listed (true for databases made by the code, connection_primary_listed) and room."
  },
  {
   "property": "C34",
   "status": "partial",
   "theorems": [
    "Verif.Props.connection_update_partial",
    "Verif.Props.connection_update_counterexample"
   ],
   "note": "Proved when the primary group comes first and objects are truthy; false otherwise."
  },
  {
   "property": "C35",
   "status": "partial",
   "theorems": [
    "Verif.Props.connection_subscript_partial",
    "Verif.Props.connection_subscript_counterexample"
   ],
   "note": "False for falsy objects."
  },
  {
   "property": "C36",
   "status": "partial",
   "theorems": [
    "Verif.Props.connection_autocommit_call",
    "Verif.Props.connection_autocommit_history_partial",
    "Verif.Props.connection_failed_commit_counterexample"
   ],
   "note": "Every single call proved in full incl. failing commits; histories proved while no commit fails; false after a failed commit."
  },
  {
   "property": "C37",
   "status": "proved",
   "theorems": [
    "Verif.Props.connection_block_atomic"
   ],
   "note": ""
  },
  {
   "property": "C38",
   "status": "proved",
   "theorems": [
    "Verif.Props.connection_history"
   ],
   "note": ""
  },
  {
   "property": "C39",
   "status": "partial",
   "theorems": [
    "Verif.Props.connection_pending_partial",
    "Verif.Props.connection_pending_lost",
    "Verif.Props.connection_pending_counterexample"
   ],
   "note": "Turning autocommit back on loses the pending calls at the next call (proved for every state)."
  },
  {
   "property": "C40",
   "status": "partial",
   "theorems": [
    "Verif.Props.connection_autocommit_option_counterexample",
    "Verif.Props.connection_autocommit_flag_partial",
    "Verif.Props.connection_block_sets_autocommit",
    "Verif.Props.connection_set_autocommit",
    "Verif.Props.connection_default_commits"
   ],
   "note": "The constructor option never reaches the manager."
  },
  {
   "property": "C75",
   "status": "partial",
   "theorems": [
    "Verif.Props.database_create_discards",
    "Verif.Props.database_create_counterexample",
    "Verif.Props.database_create_default"
   ],
   "note": "False of the code for every existing database: the container is replaced by an empty one; only the other root entries are kept."
  },
  {
   "property": "C76",
   "status": "partial",
   "theorems": [
    "Verif.Props.database_open_crash_partial",
    "Verif.Props.database_create_crash_counterexample"
   ],
   "note": "Proved for storages that have a root object; false for new storages."
  },
  {
   "property": "C43",
   "status": "proved",
   "theorems": [
    "Verif.Props.dbcontainer_refines_map"
   ],
   "note": ""
  },
  {
   "property": "C44",
   "status": "partial",
   "theorems": [
    "Verif.Props.dbcontainer_expand_partial",
    "Verif.Props.dbcontainer_expand_counterexample",
    "Verif.Props.legacy_expand"
   ],
   "note": "False of the code: expand_size does not rehash, ids whose slot changes are lost (counterexample); proved for ids whose slot stays."
  },
  {
   "property": "C46",
   "status": "proved",
   "theorems": [
    "Verif.Props.registry_refines_map"
   ],
   "note": ""
  },
  {
   "property": "C47",
   "status": "partial",
   "theorems": [
    "Verif.Props.group_read_partial",
    "Verif.Props.group_read_duplicate_counterexample",
    "Verif.Props.group_read_multiple_counterexample"
   ],
   "note": "Duplicates and multiple=True misbehave (counterexamples proved)."
  },
  {
   "property": "C48",
   "status": "partial",
   "theorems": [
    "Verif.Props.create_dbmodule_spec",
    "Verif.Props.delete_dbmodule_partial",
    "Verif.Props.delete_dbmodule_frame",
    "Verif.Props.delete_dbmodule_counterexample",
    "Verif.Props.delete_dbmodule_slash_counterexample"
   ],
   "note": "create and the frame proved in full; delete also removes foreign files whose name begins with the module name (counterexamples)."
  },
  {
   "property": "C45",
   "status": "partial",
   "theorems": [
    "Verif.Props.legacy_call_durable",
    "Verif.Props.legacy_connection_partial",
    "Verif.Props.legacy_default_manager_counterexample",
    "Verif.Props.legacy_expand"
   ],
   "note": "Proved with a CitrineTransactionManager; with the default manager every create, update and delete raises AttributeError (proved for every database)."
  },
  {
   "property": "C49",
   "status": "proved",
   "theorems": [
    "Verif.Props.context_balanced",
    "Verif.Props.context_active_counterexample"
   ],
   "note": "The counterexample concerns the flag active of the manager, which the claim does not mention."
  },
  {
   "property": "C50",
   "status": "proved",
   "theorems": [
    "Verif.Props.contextual_dispatch",
    "Verif.Props.contextual_replace",
    "Verif.Props.contextual_register_frame"
   ],
   "note": ""
  },
  {
   "property": "C51",
   "status": "partial",
   "theorems": [
    "Verif.Props.setter_validation",
    "Verif.Props.setter_lists",
    "Verif.Props.setter_tuple_counterexample"
   ],
   "note": "Proved for every value; tuples and sets are accepted like lists but stored as lists, so the stored value is then not equal to the given one (counterexample)."
  },
  {
   "property": "C52",
   "status": "proved",
   "theorems": [
    "Verif.Props.nonnegative_history"
   ],
   "note": ""
  },
  {
   "property": "C53",
   "status": "partial",
   "theorems": [
    "Verif.Props.timedelta_str_partial",
    "Verif.Props.durationText_unique",
    "Verif.Props.timedelta_str_injective",
    "Verif.Props.timedelta_str_zero_counterexample",
    "Verif.Props.timedelta_str_negative_counterexample"
   ],
   "note": "Proved for positive timedeltas; zero prints as \"P\" and negative ones with a stray minus sign (counterexamples)."
  },
  {
   "property": "C54",
   "status": "proved",
   "theorems": [
    "Verif.Props.datetime_round_trip",
    "Verif.Props.datetime_str_format",
    "Verif.Props.datetime_read_back",
    "Verif.Props.parse_stamp",
    "Verif.Props.validator_exact",
    "Verif.Props.datetime_aware_counterexample",
    "Verif.Props.leap_second_counterexample",
    "Verif.Props.early_year_counterexample"
   ],
   "note": "Also the whole format: what the validator accepts and what every text is read as. The counterexamples are limits outside the claim (zones, years below 1000, second 60)."
  },
  {
   "property": "C55",
   "status": "partial",
   "theorems": [
    "Verif.Props.validate_url_partial",
    "Verif.Props.url_host_counterexample",
    "Verif.Props.id_stores_any_counterexample"
   ],
   "note": "Exact characterisation of validate_url proved; false of the code: only the first host character is checked, and properties store invalid URLs because the result of the validator is ignored (both proved for all such strings)."
  },
  {
   "property": "C56",
   "status": "partial",
   "theorems": [
    "Verif.Props.data_exact_partial",
    "Verif.Props.data_sound",
    "Verif.Props.data_clash_counterexample",
    "Verif.Props.data_none_counterexample"
   ],
   "note": "Exact for arguments without name clashes, sound for all; with clashes one property is lost, with include_none a None becomes the text \"None\" (counterexamples)."
  },
  {
   "property": "C57",
   "status": "partial",
   "theorems": [
    "Verif.Props.handler_json_partial",
    "Verif.Props.data_json_partial",
    "Verif.Props.handler_plain",
    "Verif.Props.handler_lists",
    "Verif.Props.handler_idempotent",
    "Verif.Props.data_keys_counterexample",
    "Verif.Props.data_bool_counterexample"
   ],
   "note": "Proved for all value trees whose dictionaries have text keys; other keys are kept and booleans become texts (counterexamples)."
  },
  {
   "property": "C58",
   "status": "partial",
   "theorems": [
    "Verif.Props.nested_no_context",
    "Verif.Props.nested_exact_partial",
    "Verif.Props.nested_context_counterexample"
   ],
   "note": "First half proved; second half false: nested objects lose every property whose name is part of \"acontext\", in particular context (proved for every value)."
  },
  {
   "property": "C59",
   "status": "partial",
   "theorems": [
    "Verif.Props.cached_history",
    "Verif.Props.fetched_once",
    "Verif.Props.document_content",
    "Verif.Props.secure_get",
    "Verif.Props.secure_history_partial",
    "Verif.Props.secure_cache_counterexample"
   ],
   "note": "Caching proved for all histories and network behaviours; the part about secure loaders is false when an insecure loader has cached the url (proved for every url)."
  },
  {
   "property": "C61",
   "status": "partial",
   "theorems": [
    "Verif.Props.first_registration_wins",
    "Verif.Props.register_unique",
    "Verif.Props.registry_wf",
    "Verif.Props.engine_registry",
    "Verif.Props.backref_counterexample",
    "Verif.Props.backref_partial"
   ],
   "note": "Proved for all sequences of registrations in any number of engines; the back-reference of a class to its engine is wrong if a class is registered in two engines."
  },
  {
   "property": "C62",
   "status": "partial",
   "theorems": [
    "Verif.Props.kept_classes_partial",
    "Verif.Props.add_always_fails",
    "Verif.Props.sub_always_fails",
    "Verif.Props.sub_drops_properties",
    "Verif.Props.engine_list_fails",
    "Verif.Props.engine_add_fails",
    "Verif.Props.engine_sub_fails"
   ],
   "note": "False: all six operations raise for all arguments (proved); the class lists computed on the way are right, the property list of a difference is always empty."
  },
  {
   "property": "C63",
   "status": "proved",
   "theorems": [
    "Verif.Props.set_once",
    "Verif.Props.assign_result"
   ],
   "note": ""
  },
  {
   "property": "C64",
   "status": "partial",
   "theorems": [
    "Verif.Props.build_iff",
    "Verif.Props.build_unknown",
    "Verif.Props.linking_exact",
    "Verif.Props.class_properties",
    "Verif.Props.package_lists",
    "Verif.Props.build_object_as_property"
   ],
   "note": "Linking is exact for all mappings; listing a class that is no property raises AttributeError instead of ValueError."
  },
  {
   "property": "C65",
   "status": "partial",
   "theorems": [
    "Verif.Props.clone_terminates",
    "Verif.Props.clone_order",
    "Verif.Props.clone_each_once",
    "Verif.Props.cloneBases_nearest",
    "Verif.Props.clone_mro_partial",
    "Verif.Props.clone_can_fail",
    "Verif.Props.clone_one_shot"
   ],
   "note": "Termination, order and single cloning are proved for every hierarchy accepted by Python (C3 is modelled); creation of a clone can fail (TypeError) when a class between two packaged ones is left out, and one-shot iterators lose all classes but the first (counterexamples). Success and the exact mro are proved when the packaged classes come first in their mros."
  },
  {
   "property": "C84",
   "status": "partial",
   "theorems": [
    "Verif.Props.clone_resolves_partial",
    "Verif.Props.clone_isinstance_partial",
    "Verif.Props.clone_misresolves"
   ],
   "note": "False when a class that is not packaged overrides an attribute of a packaged ancestor (counterexample); proved for every other hierarchy without redundant bases."
  },
  {
   "property": "C69",
   "status": "partial",
   "theorems": [
    "Verif.Props.packaged_nonnegative",
    "Verif.Props.nonnegative_rows",
    "Verif.Props.unpackaged_collection",
    "Verif.Props.packaged_total",
    "Verif.Props.packaged_items_lost",
    "Verif.Props.unpackaged_negative",
    "Verif.Props.total_not_updated",
    "Verif.Props.total_counts_characters"
   ],
   "note": "Non-negativity holds on packaged objects after every history; the number is right for new unpackaged collections; packaged collections lose their items (totalItems 0), unpackaged ones accept negative numbers, later assignments of items are not counted, the characters of a single string are."
  },
  {
   "property": "C71",
   "status": "partial",
   "theorems": [
    "Verif.Props.set_get_partial",
    "Verif.Props.set_rejected",
    "Verif.Props.set_get_atomic",
    "Verif.Props.set_get_plain",
    "Verif.Props.get_result",
    "Verif.Props.get_unset",
    "Verif.Props.slots_distinct",
    "Verif.Props.hreflang_lost"
   ],
   "note": "Holds for all properties but hreflang, whose getter reads an attribute its setter does not write; strings may be stored as Links or datetimes, tuples as lists (StoredFor)."
  },
  {
   "property": "C79",
   "status": "partial",
   "theorems": [
    "Verif.Props.shadowed_properties",
    "Verif.Props.shadowed_reject",
    "Verif.Props.unshadowed_accept"
   ],
   "note": "Nine properties refuse Objects because properties.py rebinds the name Object."
  },
  {
   "property": "C80",
   "status": "partial",
   "theorems": [
    "Verif.Props.arguments_kept_partial",
    "Verif.Props.unknown_arguments_ignored",
    "Verif.Props.type_is_class",
    "Verif.Props.packaged_type_none",
    "Verif.Props.packaged_items_lost",
    "Verif.Props.unpackaged_collection",
    "Verif.Props.packaged_total",
    "Verif.Props.start_index",
    "Verif.Props.required_arguments",
    "Verif.Props.required_missing",
    "Verif.Props.tombstone_former_type",
    "Verif.Props.mro_c3"
   ],
   "note": "All arguments but type, items, totalItems, startIndex and hreflang are kept, for every class; the exceptions are described exactly."
  },
  {
   "property": "C86",
   "status": "proved",
   "theorems": [
    "Verif.Props.json_no_requests",
    "Verif.Props.json_links",
    "Verif.Props.json_dates"
   ],
   "note": ""
  },
  {
   "property": "C70",
   "status": "proved",
   "theorems": [
    "Verif.Props.create_package_loads",
    "Verif.Props.namespaces_distinct",
    "Verif.Props.type_names_distinct",
    "Verif.Props.package_complete",
    "Verif.Props.mapping_known",
    "Verif.Props.as_clones"
   ],
   "note": ""
  },
  {
   "property": "C81",
   "status": "partial",
   "theorems": [
    "Verif.Props.links_not_loaded",
    "Verif.Props.engine_types",
    "Verif.Props.engine_classes",
    "Verif.Props.known_types_loaded_partial"
   ],
   "note": "False of the code for Object and Link: linking the property `type` to them overwrites the class attribute their namespace is made from, so their documents raise AttributeError (top) or become None (nested). Proved for the other classes."
  },
  {
   "property": "C87",
   "status": "partial",
   "theorems": [
    "Verif.Props.loaded_properties_partial",
    "Verif.Props.loaded_items_lost",
    "Verif.Props.context_never_loaded"
   ],
   "note": "False of the code: items (and other item lists) of collections, hreflang and id of Mentions, formerType of Tombstones, and context are lost; totalItems/startIndex become 0 instead of None. The theorem says exactly what is kept for every class and property."
  },
  {
   "property": "C66",
   "status": "partial",
   "theorems": [
    "Verif.Props.read_keeps_partial",
    "Verif.Props.read_raises",
    "Verif.Props.change_keeps_partial",
    "Verif.Props.change_raises",
    "Verif.Props.change_raises_property",
    "Verif.Props.change_loses",
    "Verif.Props.change_half_done",
    "Verif.Props.reading_loses",
    "Verif.Props.reading_half_done"
   ],
   "note": "False of the code in general: values of read-only properties and values whose setter raises AttributeError are lost silently, and a refused value leaves a half-changed object (counterexamples). Proved: everything else is kept, for every class hierarchy and for all ActivityStreams classes."
  },
  {
   "property": "C82",
   "status": "partial",
   "theorems": [
    "Verif.Props.namespaces_after_reads",
    "Verif.Props.types_known_after_reads",
    "Verif.Props.reading_forgets_types",
    "Verif.Props.change_ns",
    "Verif.Props.change_sets_ns",
    "Verif.Props.nsOf_spec",
    "Verif.Props.nsOf_putNs",
    "Verif.Props.unrelated_ns_kept"
   ],
   "note": "False of the code (counterexample reading_forgets_types); proved exactly which namespaces and types change, for every history of reads."
  },
  {
   "property": "C83",
   "status": "partial",
   "theorems": [
    "Verif.Props.refresh_exact",
    "Verif.Props.properties_exact_partial",
    "Verif.Props.registration_exact_partial",
    "Verif.Props.properties_depend_on_history"
   ],
   "note": "False of the code without refresh: a cache of an ancestor is inherited (counterexample). Proved with refresh, and without it if no ancestor was asked before."
  },
  {
   "property": "C88",
   "status": "partial",
   "theorems": [
    "Verif.Props.round_trip_partial",
    "Verif.Props.written_and_loaded",
    "Verif.Props.tombstone_not_reloaded",
    "Verif.Props.closed_not_reloaded",
    "Verif.Props.duration_comes_back_as_text",
    "Verif.Props.link_comes_back_bare"
   ],
   "note": "Proved for every object whose values are of the kinds listed in ComesBack (texts, numbers, lists, naive datetimes of whole seconds, bare Links, nested objects to any depth). False for the others: counterexamples for deleted, closed, duration and Links with more than an address."
  },
  {
   "property": "C72",
   "status": "partial",
   "theorems": [
    "Verif.Props.getPrimes_unbounded_partial",
    "Verif.Props.getPrimes_max_counterexample"
   ],
   "note": "Without a maximum exactly the primes (and 0, 1) from min on are yielded in order; with a maximum nothing is yielded when min <= max (the test is reversed: counterexample)."
  },
  {
   "property": "C67",
   "status": "partial",
   "theorems": [
    "Verif.Props.hrefOnly_link",
    "Verif.Props.hrefOnly_list",
    "Verif.Props.hrefOnly_other",
    "Verif.Props.hrefOnly_idem_partial",
    "Verif.Props.hrefOnly_idem_counterexample",
    "Verif.Props.createLink_spec",
    "Verif.Props.createLink_str",
    "Verif.Props.linkable_iff",
    "Verif.Props.href_of_created_partial",
    "Verif.Props.href_nested_counterexample"
   ],
   "note": "False for lists in lists (their Links are not reduced), and reducing twice differs if a Link has a Link as its href (counterexamples); everything else proved for all values."
  },
  {
   "property": "C68",
   "status": "proved",
   "theorems": [
    "Verif.Props.expand_spec",
    "Verif.Props.expand_link",
    "Verif.Props.expand_no_engine",
    "Verif.Props.expand_requests",
    "Verif.Props.expand_other"
   ],
   "note": ""
  },
  {
   "property": "C89",
   "status": "proved",
   "theorems": [
    "Verif.Props.in_use_reads"
   ],
   "note": "InUse: made by Container.new, any calls not turning strict mode on; truthy objects."
  },
  {
   "property": "C90",
   "status": "proved",
   "theorems": [
    "Verif.Props.in_use_write",
    "Verif.Props.InUse.write"
   ],
   "note": ""
  },
  {
   "property": "C91",
   "status": "proved",
   "theorems": [
    "Verif.Props.in_use_delete",
    "Verif.Props.InUse.delete"
   ],
   "note": ""
  },
  {
   "property": "C92",
   "status": "proved",
   "theorems": [
    "Verif.Props.in_use_condense",
    "Verif.Props.in_use_resize",
    "Verif.Props.in_use_default_groups"
   ],
   "note": ""
  },
  {
   "property": "C93",
   "status": "proved",
   "theorems": [
    "Verif.Props.session_is_store",
    "Verif.Props.database_is_store"
   ],
   "note": "Specification: Verif/Spec/Store.lean. Strict mode is not turned on; objects are truthy; one session at a time."
  },
  {
   "property": "C94",
   "status": "proved",
   "theorems": [
    "Verif.Props.group_discovers",
    "Verif.Props.group_undiscovered",
    "Verif.Props.group_default"
   ],
   "note": ""
  },
  {
   "property": "C77",
   "status": "partial",
   "theorems": [
    "Verif.Props.module_create_counterexample",
    "Verif.Props.module_create_default",
    "Verif.Props.group_create_counterexample",
    "Verif.Props.find_dbmodules_spec"
   ],
   "note": "False of the code: DbModule.create raises ImportError for every free name (generated __init__ imports a name that does not exist), so DbGroup.create_dbmodule never succeeds."
  },
  {
   "property": "C60",
   "status": "partial",
   "theorems": [
    "Verif.Props.from_json_builds",
    "Verif.Props.nested_values",
    "Verif.Props.nested_context",
    "Verif.Props.document_context",
    "Verif.Props.loads_unique",
    "Verif.Props.plain_unchanged",
    "Verif.Props.unknown_type_attribute_error",
    "Verif.Props.nested_unknown_lost",
    "Verif.Props.Mem.document_unchanged",
    "Verif.Props.Mem.same_result"
   ],
   "note": "Exact characterisation for all documents, registries, expand results and constructors. False in part: an unknown type without default class raises AttributeError at the top and is silently None when nested. That the dictionary of the caller is not modified is Mem.document_unchanged, on the model with references, which Mem.same_result connects to the tree model."
  },
  {
   "property": "C85",
   "status": "proved",
   "theorems": [
    "Verif.Props.package_lookup",
    "Verif.Props.getitem_result"
   ],
   "note": ""
  },
  {
   "property": "C95",
   "status": "proved",
   "theorems": [
    "Verif.Props.date_text_exact",
    "Verif.Props.date_setter_exact",
    "Verif.Props.date_properties"
   ],
   "note": ""
  },
  {
   "property": "C96",
   "status": "proved",
   "theorems": [
    "Verif.Props.vocabulary_types",
    "Verif.Props.vocabulary_supertypes",
    "Verif.Props.vocabulary_domains"
   ],
   "note": "Types, subtypes and domains against Spec/Vocabulary.lean, written from the W3C text. The class list and the is-a relation agree exactly; the domains agree except that every Object lacks context, every Link lacks attributedTo, and collections have orderedItems and unorderedItems in addition. (Finite tables, checked completely by the kernel; vocabulary_domains is for every name.)"
  },
  {
   "property": "C97",
   "status": "proved",
   "theorems": [
    "Verif.Props.vocabulary_ranges",
    "Verif.Props.hreflang_lost",
    "Verif.Props.type_unchecked",
    "Verif.Props.vocabulary_kept",
    "Verif.Props.functional_single",
    "Verif.Props.object_refused_counterexample",
    "Verif.Props.text_refused_counterexample"
   ],
   "note": "For every value: assignment succeeds exactly for None, the values of the kinds in the range, and lists of these unless functional - but for the kinds listed in refused (counterexamples: the range of the vocabulary is not what is taken), the additional kinds listed in extra, and type of the classes below Object and Link (type_unchecked: anything is taken)."
  },
  {
   "property": "C98",
   "status": "proved",
   "theorems": [
    "Verif.Props.sessions_share_a_map",
    "Verif.Props.one_group_shares_a_map",
    "Verif.Props.new_shared",
    "Verif.Props.copies_refuse_counterexample"
   ],
   "note": "Every container in use (Container.new and any calls and resizes), every schedule, any number of sessions; one_group_shares_a_map: no extra refusals with one group; copies_refuse_counterexample: with several groups they exist. The behaviour of ZODB is the one described in Db/Concurrent.lean. Resize in a schedule and strict mode: see C103, C104 (false there)."
  },
  {
   "property": "C99",
   "status": "proved",
   "theorems": [
    "Verif.Props.block_isolated",
    "Verif.Props.copies_refuse_counterexample"
   ],
   "note": "Every reachable database and every interleaving; before, other and mine are plain maps. The condition for success to be exact cannot be dropped (copies_refuse_counterexample)."
  },
  {
   "property": "C100",
   "status": "proved",
   "theorems": [
    "Verif.Props.calls_linearizable",
    "Verif.Props.two_groups_past",
    "Verif.Props.two_groups_not_serial_counterexample"
   ],
   "note": "Herlihy-Wing linearizability for every container in use, proved for every schedule; false for hand-made containers with the primary group not first (the two counterexample theorems together)."
  },
  {
   "property": "C101",
   "status": "partial",
   "theorems": [
    "Verif.Props.block_serializable_partial",
    "Verif.Props.write_skew_counterexample"
   ],
   "note": "False in general (write skew); true for blocks each of whose ids was changed by the block or not changed by others."
  },
  {
   "property": "C102",
   "status": "partial",
   "theorems": [
    "Verif.Props.others_invisible",
    "Verif.Props.stale_read_counterexample"
   ],
   "note": "False; what holds instead (others_invisible): nothing that other sessions do changes what a session reads between its own moves."
  },
  {
   "property": "C103",
   "status": "partial",
   "theorems": [
    "Verif.Props.resize_apart_partial",
    "Verif.Props.resize_loses_write_counterexample"
   ],
   "note": "False, for every id, object and size; proved for transactions that do not overlap, with any number of resizes."
  },
  {
   "property": "C104",
   "status": "partial",
   "theorems": [
    "Verif.Props.strict_limit_apart_partial",
    "Verif.Props.strict_limit_counterexample"
   ],
   "note": "False: a concrete schedule of two sessions that both succeed; proved for transactions that do not overlap. By how much the limits can be exceeded: C158."
  },
  {
   "property": "C105",
   "status": "partial",
   "theorems": [
    "Verif.Props.threads_contexts_partial",
    "Verif.Props.locked_contexts_partial",
    "Verif.Props.context_stuck_counterexample",
    "Verif.Props.context_lost_counterexample",
    "Verif.Props.outsider_sees_json_counterexample",
    "Verif.Props.locked_contexts_counterexample"
   ],
   "note": "What holds for every schedule, what holds if switches are not interrupted, and schedules in which the rest fails."
  },
  {
   "property": "C106",
   "status": "partial",
   "theorems": [
    "Verif.Props.cache_threads_partial",
    "Verif.Props.cache_settles_partial",
    "Verif.Props.whole_call",
    "Verif.Props.cache_twice_counterexample"
   ],
   "note": "All but the last sentence, for every schedule; the last sentence is false (counterexample)."
  },
  {
   "property": "C107",
   "status": "proved",
   "theorems": [
    "Verif.Props.group_usage",
    "Verif.Props.group_usage_insert",
    "Verif.Props.group_usage_none",
    "Verif.Props.container_usage",
    "Verif.Props.container_usage_counterexample"
   ],
   "note": "For containers the statement names the deviation from the docstring, shown by the counterexample. Floats are rationals."
  },
  {
   "property": "C108",
   "status": "partial",
   "theorems": [
    "Verif.Props.collection_strict_history",
    "Verif.Props.group_strict_call",
    "Verif.Props.group_strict_history_partial",
    "Verif.Props.container_strict_call",
    "Verif.Props.container_strict_history_partial",
    "Verif.Props.strict_reads",
    "Verif.Props.group_strict_history_counterexample",
    "Verif.Props.container_strict_history_counterexample"
   ],
   "note": "Collections: all histories. Groups and containers: all histories in which no update, condense or resize was refused half-way; with one the statement is false (counterexamples)."
  },
  {
   "property": "C109",
   "status": "proved",
   "theorems": [
    "Verif.Props.sessions_share_map_and_flag",
    "Verif.Props.strict_conflict_counterexample"
   ],
   "note": "Every container in use, strict or not, every schedule without resize; the counterexample shows that the refusal of a commit by the flag alone does happen. Extends C98 to strict mode."
  },
  {
   "property": "C110",
   "status": "proved",
   "theorems": [
    "Verif.Props.apart_is_serial",
    "Verif.Props.apart_state"
   ],
   "note": "Exact equality of containers, all modes and all calls; corollaries carry the single-user theorems over (C103, C104)."
  },
  {
   "property": "C111",
   "status": "proved",
   "theorems": [
    "Verif.Props.container_assemble",
    "Verif.Props.container_assemble_default",
    "Verif.Props.container_assemble_bad_strict"
   ],
   "note": "The read clause is for truthy objects, as in C25."
  },
  {
   "property": "C112",
   "status": "proved",
   "theorems": [
    "Verif.Props.open_is_exclusive",
    "Verif.Props.close_drops_nothing",
    "Verif.Props.can_be_closed"
   ],
   "note": "Any history of open, close, with-blocks, calls, failing commits; calls on a connection are single steps here."
  },
  {
   "property": "C113",
   "status": "partial",
   "theorems": [
    "Verif.Props.with_db_block_partial",
    "Verif.Props.exit_unentered",
    "Verif.Props.with_db_counterexample"
   ],
   "note": "Proved for blocks of one database object that do not overlap; false when they overlap (counterexample)."
  },
  {
   "property": "C114",
   "status": "partial",
   "theorems": [
    "Verif.Props.opened_like_new_partial",
    "Verif.Props.block_ends_autocommit",
    "Verif.Props.autocommit_switch",
    "Verif.Props.reopened_flag_counterexample"
   ],
   "note": "All behaviour proved the same; only the reported autocommit flag differs (counterexample)."
  },
  {
   "property": "C115",
   "status": "partial",
   "theorems": [
    "Verif.Props.container_contains_partial",
    "Verif.Props.container_stubs_counterexample"
   ],
   "note": "False of the code: the methods are empty."
  },
  {
   "property": "C41",
   "status": "proved",
   "theorems": [
    "Verif.Props.database_open",
    "Verif.Props.database_open_idempotent",
    "Verif.Props.open_never_discards",
    "Verif.Props.open_file_storage",
    "Verif.Props.client_connect",
    "Verif.Props.database_life"
   ],
   "note": ""
  },
  {
   "property": "C42",
   "status": "partial",
   "theorems": [
    "Verif.Props.database_create_partial",
    "Verif.Props.database_create_zero",
    "Verif.Props.database_create_strict_counterexample"
   ],
   "note": "Capacity proved; the strict argument is ignored (proved for all arguments)."
  },
  {
   "property": "C78",
   "status": "partial",
   "theorems": [
    "Verif.Props.group_destroy_counterexample",
    "Verif.Props.group_destroy_partial",
    "Verif.Props.group_destroy_empty_counterexample",
    "Verif.Props.module_path_set_once"
   ],
   "note": "The module stays listed in the group (proved for every group), and the empty name deletes every file of the directory."
  },
  {
   "property": "C116",
   "status": "partial",
   "theorems": [
    "Verif.Props.open_storage_partial",
    "Verif.Props.open_file_storage",
    "Verif.Props.open_path_counterexample",
    "Verif.Props.open_memory_counterexample",
    "Verif.Props.open_new_object_counterexample",
    "Verif.Props.open_databases_counterexample",
    "Verif.Props.open_databases_file_storage",
    "Verif.Props.open_taken_name_locks",
    "Verif.Props.client_connect"
   ],
   "note": "Exactly which arguments work is proved; existing paths, None, new storage objects other than FileStorage, and databases= never do."
  },
  {
   "property": "C117",
   "status": "partial",
   "theorems": [
    "Verif.Props.citrine_setup",
    "Verif.Props.citrine_setup_twice",
    "Verif.Props.citrine_setup_pending_counterexample",
    "Verif.Props.managed_setup_counterexample"
   ],
   "note": "Proved for CitrineConnection in a session without uncommitted changes; ManagedConnection.setup raises TypeError for every database without container."
  },
  {
   "property": "C118",
   "status": "partial",
   "theorems": [
    "Verif.Props.group_connect_partial",
    "Verif.Props.group_connect_counterexample"
   ],
   "note": "All but the transaction manager."
  },
  {
   "property": "C119",
   "status": "partial",
   "theorems": [
    "Verif.Props.managed_init_partial",
    "Verif.Props.managed_default_counterexample",
    "Verif.Props.managed_operations_counterexample"
   ],
   "note": "False of the code; only making one under a free name of its own works."
  },
  {
   "property": "C120",
   "status": "proved",
   "theorems": [
    "Verif.Props.group_databases",
    "Verif.Props.group_size_sum"
   ],
   "note": ""
  },
  {
   "property": "C121",
   "status": "partial",
   "theorems": [
    "Verif.Props.data_recursion_partial",
    "Verif.Props.data_returns_partial",
    "Verif.Props.data_limit_irrelevant",
    "Verif.Props.data_of_trees",
    "Verif.Props.data_self_counterexample",
    "Verif.Props.data_mutual_counterexample",
    "Verif.Props.data_chain_counterexample"
   ],
   "note": "Exact condition proved: RecursionError iff something written is nested deeper than the limit; for some limit data returns iff nothing written contains itself. False as stated for cyclic and very deep graphs (counterexamples)."
  },
  {
   "property": "C122",
   "status": "partial",
   "theorems": [
    "Verif.Props.item_exact",
    "Verif.Props.item_unknown",
    "Verif.Props.iterate_exact",
    "Verif.Props.item_iterator_counterexample",
    "Verif.Props.item_type_counterexample"
   ],
   "note": "Proved for texts, lists and tuples of names and for iteration; iterators give an empty dictionary, keys that are no texts a TypeError (counterexamples)."
  },
  {
   "property": "C123",
   "status": "partial",
   "theorems": [
    "Verif.Props.transforms_counterexample",
    "Verif.Props.transforms_ignored_partial"
   ],
   "note": "False of the code for every dictionary of functions; what is left is that the argument does no harm."
  },
  {
   "property": "C124",
   "status": "partial",
   "theorems": [
    "Verif.Props.relink_lookup",
    "Verif.Props.relink_written_partial",
    "Verif.Props.relink_refreshed",
    "Verif.Props.link_counterexample",
    "Verif.Props.unlink_counterexample"
   ],
   "note": "Attributes proved for all histories; what data() writes is right exactly if the names of the class did not change since its last refresh (iff proved, with counterexamples)."
  },
  {
   "property": "C125",
   "status": "partial",
   "theorems": [
    "Verif.Props.property_object_partial",
    "Verif.Props.attribute_probe",
    "Verif.Props.property_object_counterexample"
   ],
   "note": "False of the code: every missing attribute raises ValueError."
  },
  {
   "property": "C126",
   "status": "proved",
   "theorems": [
    "Verif.Props.fl_nearest",
    "Verif.Props.isPrimeF_correct",
    "Verif.Props.ceilDivF_eq",
    "Verif.Props.numberOfCollectionsF_eq",
    "Verif.Props.nextNumberOfCollectionsF_eq",
    "Verif.Props.statusF_eq",
    "Verif.Props.group_statusF_eq",
    "Verif.Props.floatDiv_usage",
    "Verif.Props.usage_figures_rounded",
    "Verif.Props.huge_capacity_counterexample"
   ],
   "note": "Binary64 rounding is defined and shown to be round-to-nearest (fl_nearest); the bounds are needed (huge_capacity_counterexample). This also discharges the simplification of C01, C02, C10, C107 to exact numbers."
  },
  {
   "property": "C73",
   "status": "partial",
   "theorems": [
    "Verif.Props.connection_autocommit_call",
    "Verif.Props.connection_failed_commit_counterexample",
    "Verif.Props.connection_recovers_partial",
    "Verif.Props.connection_recovers_block_partial"
   ],
   "note": "The call raises and the stored data is unchanged (connection_autocommit_call); later calls are not durable (proved for every state) until the program assigns autocommit = True or uses a block, after which everything is durable again (proved)."
  },
  {
   "property": "C74",
   "status": "partial",
   "theorems": [
    "Verif.Props.connection_strict_lost",
    "Verif.Props.connection_strict_counterexample",
    "Verif.Props.connection_strict_block_partial"
   ],
   "note": "False for every state: the assignment is never stored while autocommit is on; inside a block it is stored and stays (proved)."
  },
  {
   "property": "C127",
   "status": "partial",
   "theorems": [
    "Verif.Props.Pickle.storable_iff",
    "Verif.Props.Pickle.loads_iff",
    "Verif.Props.Pickle.storable_clones",
    "Verif.Props.Pickle.loaded_unpackaged",
    "Verif.Props.Pickle.packaged_call_counterexample",
    "Verif.Props.Pickle.packaged_block_counterexample",
    "Verif.Props.Pickle.stored_loads",
    "Verif.Props.Pickle.storable_history_partial",
    "Verif.Props.Pickle.stored_unpackaged"
   ],
   "note": "False for objects in which a packaged class occurs: its name leads to the original class, so pickle refuses it, the call raises and the session is left with a failed transaction, and a with block loses everything done in it. Proved: exactly the objects all of whose classes are found under their names can be stored, they load as they were, and histories that store only such objects go as if nothing were pickled."
  },
  {
   "property": "C128",
   "status": "partial",
   "theorems": [
    "Verif.Props.Live.call_spec",
    "Verif.Props.Live.live_store_partial",
    "Verif.Props.Live.disk_unchanged",
    "Verif.Props.Live.stray_change_stored",
    "Verif.Props.Live.stray_change_unstored",
    "Verif.Props.Live.abort_keeps_change",
    "Verif.Props.Live.update_previous"
   ],
   "note": "False: changes of an object in the database are written with the next change of a neighbour in its record, or silently lost, survive abort, and make update return the new contents as the previous ones (stray_change_stored, stray_change_unstored, abort_keeps_change, update_previous). Proved: while no object in the database is changed, every history is one of the transactional map of C93 with contents as they were when given; and without a call about an id of a record its stored contents never change. ZODB records are modelled with a fixed assignment of ids."
  },
  {
   "property": "C129",
   "status": "proved",
   "theorems": [
    "Verif.Props.Falsy.container_history_falsy",
    "Verif.Props.Falsy.database_all_objects",
    "Verif.Props.Falsy.python_falsy"
   ],
   "note": "Specification of the session: Verif/Spec/Store.lean with the reading of falsy objects stated in Props/Falsy.lean. Strict mode is not turned on; one session at a time."
  },
  {
   "property": "C22",
   "status": "partial",
   "theorems": [
    "Verif.Props.container_history_partial",
    "Verif.Props.container_history_strict_partial",
    "Verif.Props.Falsy.container_history_falsy",
    "Verif.Props.Falsy.stale_object_counterexample"
   ],
   "note": "Proved for truthy objects and containers made by Container.new. False for falsy objects, which read skips: an older object can come back (Falsy.stale_object_counterexample); what holds for all objects is container_history_falsy, see C129."
  },
  {
   "property": "C130",
   "status": "partial",
   "theorems": [
    "Verif.Props.Crew.turns_partial",
    "Verif.Props.Crew.returned_call_lost_counterexample",
    "Verif.Props.Crew.dirty_read_counterexample",
    "Verif.Props.Crew.aborted_block_stored_counterexample",
    "Verif.Props.Crew.autocommit_flag_counterexample"
   ],
   "note": "Holds for threads that take turns, each turn a whole call or a whole with block (turns_partial, with failing commits and crashes). False otherwise: the transaction is per thread but the connection joins only the transaction of the thread that changed it first, so calls that returned are lost, uncommitted changes are read and aborted blocks are stored; the autocommit property is shared while autocommit is per thread. Interleavings inside one call are not modelled."
  },
  {
   "property": "C131",
   "status": "proved",
   "theorems": [
    "Verif.Props.Figures.database_figures",
    "Verif.Props.Figures.database_strict_figures"
   ],
   "note": "Floats are rational numbers here (see C126). One session at a time; the session specification is Verif/Spec/Store.lean."
  },
  {
   "property": "C132",
   "status": "proved",
   "theorems": [
    "Verif.Props.Mem.document_unchanged",
    "Verif.Props.Mem.shares_only_context",
    "Verif.Props.Mem.context_shared",
    "Verif.Props.Mem.context_shared_twice",
    "Verif.Props.Mem.keeping_modest",
    "Verif.Props.Mem.same_result",
    "Verif.Props.Mem.means_view"
   ],
   "note": "For constructors that change nothing and make new objects from their arguments (shown in C134 of constructors that assign their arguments to properties, and here of one that keeps its arguments, keeping_modest). The recursion limit is a parameter: RecursionError is an outcome."
  },
  {
   "property": "C133",
   "status": "proved",
   "theorems": [
    "Verif.Props.Reads.read_plain",
    "Verif.Props.Reads.read_link",
    "Verif.Props.Reads.read_other",
    "Verif.Props.Reads.write_link",
    "Verif.Props.Reads.write_plain",
    "Verif.Props.Reads.json_linked"
   ],
   "note": "Added after a mutant (audience without Link.expand) survived. That replies refuses the Links made from addresses is in C97."
  },
  {
   "property": "C134",
   "status": "proved",
   "theorems": [
    "Verif.Props.Alias.assign_changes_only",
    "Verif.Props.Alias.stored_copy",
    "Verif.Props.Alias.copy_lists_new",
    "Verif.Props.Alias.callers_lists_free",
    "Verif.Props.Alias.dictionary_shared",
    "Verif.Props.Alias.list_read_is_stored",
    "Verif.Props.Alias.validation_bypassed_counterexample",
    "Verif.Props.Alias.build_changes_nothing",
    "Verif.Props.Alias.build_keeps",
    "Verif.Props.Alias.builds_modest",
    "Verif.Props.Alias.stores_same"
   ],
   "note": "For dates the copy theorems say nothing (parsed dates are new objects). The Link class is assumed to make new objects and to change nothing, which is proved of classes that assign their arguments (build_changes_nothing, build_keeps). Recursion depth is a number; running out of it is an exception. That reading bypasses the setter is a finding (validation_bypassed_counterexample)."
  },
  {
   "property": "C135",
   "status": "proved",
   "theorems": [
    "Verif.Props.MemData.data_changes_nothing",
    "Verif.Props.MemData.result_is_new",
    "Verif.Props.MemData.result_may_be_changed",
    "Verif.Props.MemData.result_is_dict",
    "Verif.Props.MemData.results_disjoint",
    "Verif.Props.MemData.same_contents"
   ],
   "note": "The attributes of an object in the model are the values its getters return in the JSON context; that getters change nothing is assumed here (wrapped getters of packages do, C121 to C125). Dictionaries with keys that are no texts and iterables of other classes are left out of this model."
  },
  {
   "property": "C136",
   "status": "partial",
   "theorems": [
    "Verif.Props.Program.flat_program_partial",
    "Verif.Props.Program.inner_block_drops_outer",
    "Verif.Props.Program.inner_block_ends_outer",
    "Verif.Props.Program.nested_block_partial",
    "Verif.Props.Program.nested_block_counterexample"
   ],
   "note": "Proved for all programs without blocks inside blocks in which the storage refuses no commit of a single call (those of blocks may be refused; C73). With blocks inside blocks the claim is false (counterexample for all ids and objects); proved instead what is stored then, for all inner and later programs."
  },
  {
   "property": "C137",
   "status": "proved",
   "theorems": [
    "Verif.Props.Walk.construct_asks_nothing",
    "Verif.Props.Walk.construct_web",
    "Verif.Props.Walk.load_web",
    "Verif.Props.Walk.walk_leads",
    "Verif.Props.Walk.walk_fails",
    "Verif.Props.Walk.leads_requests",
    "Verif.Props.Walk.leads_inside",
    "Verif.Props.Walk.leads_asked",
    "Verif.Props.Walk.readAttr_getAttr",
    "Verif.Props.Walk.load_truthy"
   ],
   "note": "For all networks given as functions (an address always gives the same answer). The specification of a walk is the inductive relation Leads, on objects as values; readAttr_getAttr relates reading a value to reading the attributes of an object. Methods and private attributes of objects are not modelled."
  },
  {
   "property": "C138",
   "status": "partial",
   "theorems": [
    "Verif.Props.Readme.readme_walk_partial",
    "Verif.Props.Readme.readme_offline",
    "Verif.Props.Readme.readme_addresses_counterexample",
    "Verif.Props.Walk.list_links_not_opened"
   ],
   "note": "Proved for items that are written out in the page, with any classes that have these properties and any position; and what happens without the page. For items given as addresses the claim is false: proved that the expression raises AttributeError for all of them, whatever is at the address."
  },
  {
   "property": "C139",
   "status": "partial",
   "theorems": [
    "Verif.Props.Get.caller_headers_partial",
    "Verif.Props.Get.caller_headers_counterexample",
    "Verif.Props.Get.default_headers",
    "Verif.Props.Get.get_reply_partial",
    "Verif.Props.Get.get_status_counterexample"
   ],
   "note": "Each header the caller names once is sent with the value given, all others as by default; a header written in two cases is not sent as requests alone would send it, and the status of the response is never looked at."
  },
  {
   "property": "C140",
   "status": "partial",
   "theorems": [
    "Verif.Props.JsonText.loads_iff",
    "Verif.Props.JsonText.loads_error",
    "Verif.Props.JsonText.loads_dumps",
    "Verif.Props.JsonText.dumps_json_partial",
    "Verif.Props.JsonText.dumps_json_counterexample",
    "Verif.Props.JsonText.dumps_injective",
    "Verif.Props.JsonText.dumps_ascii",
    "Verif.Props.JsonText.minified_shortest",
    "Verif.Props.JsonText.json_reads_back_partial",
    "Verif.Props.JsonText.from_text",
    "Verif.Props.JsonText.from_other_text",
    "Verif.Props.JsonText.json_keys_counterexample",
    "Verif.Props.JsonText.text_round_trip_partial"
   ],
   "note": "loads is exactly the RFC 8259 grammar plus the three names NaN, Infinity and -Infinity, which dumps writes for floats that are no numbers; two keys that are written alike collide; the round trip has the limits of C88. The recursion limit and halves of surrogate pairs are not modelled."
  },
  {
   "property": "C141",
   "status": "partial",
   "theorems": [
    "Verif.Props.Readme.new_object_text",
    "Verif.Props.Readme.object_made",
    "Verif.Props.Readme.text_of_type",
    "Verif.Props.Readme.readme_text_walk_partial",
    "Verif.Props.Readme.ex_shipped"
   ],
   "note": "New objects in full; loading gives class, id and type when it gives anything (C81 has what is lost); the walk has the limits of C138. The order of the properties in a text is not modelled."
  },
  {
   "property": "C142",
   "status": "partial",
   "theorems": [
    "Verif.Props.JsonArgs.json_of_arguments_partial",
    "Verif.Props.JsonArgs.new_value",
    "Verif.Props.JsonArgs.nested_alone",
    "Verif.Props.JsonArgs.not_shown_counterexample"
   ],
   "note": "All values of the named shapes; false of the code for the property context (never written) and for the properties that constructors lose (C80), not_shown_counterexample."
  },
  {
   "property": "C143",
   "status": "proved",
   "theorems": [
    "Verif.Props.Listing.listing_order",
    "Verif.Props.Listing.listing_ancestors",
    "Verif.Props.Listing.package_lookup",
    "Verif.Props.Listing.subclass_hides"
   ],
   "note": "Namespaces are given as a function of the classes."
  },
  {
   "property": "C144",
   "status": "proved",
   "theorems": [
    "Verif.Props.Changing.walk_snapshot",
    "Verif.Props.Changing.walk_steady",
    "Verif.Props.Changing.snapshot_exists",
    "Verif.Props.Changing.walks_each",
    "Verif.Props.Changing.step_requests",
    "Verif.Props.Changing.walk_leads_in",
    "Verif.Props.Changing.walk_fails_in",
    "Verif.Props.Changing.read_twice"
   ],
   "note": "Requests of the JSON-LD context loader are not counted; methods and attributes that are no properties are not part of walks."
  },
  {
   "property": "C145",
   "status": "partial",
   "theorems": [
    "Verif.Props.Stringify.stringify_plain",
    "Verif.Props.Stringify.stringify_idempotent",
    "Verif.Props.Stringify.stringify_plain_id",
    "Verif.Props.Stringify.stringify_succeeds_iff",
    "Verif.Props.Stringify.stringify_error",
    "Verif.Props.Stringify.stringify_sequence",
    "Verif.Props.Stringify.stringify_dict",
    "Verif.Props.Stringify.stringify_dict_distinct",
    "Verif.Props.Stringify.stringify_simple",
    "Verif.Props.Stringify.transform_own_partial",
    "Verif.Props.Stringify.transform_special",
    "Verif.Props.Stringify.stringify_numbers_counterexample",
    "Verif.Props.Stringify.stringify_merges_counterexample",
    "Verif.Props.Stringify.stringify_tuple_key_counterexample",
    "Verif.Props.Stringify.transform_result_counterexample",
    "Verif.Props.Stringify.transform_table",
    "Verif.Props.Stringify.transform_special_errors",
    "Verif.Props.Stringify.transform_vocabulary_counterexample"
   ],
   "note": "All of stringify is proved. The last sentence is false: the entry named result converts the whole object and never looks at its result. The comment that every key and value becomes a string is false too: numbers stay numbers. Nothing in the repository calls this code; values that contain themselves are not modelled. The table lacks 15 properties of the vocabulary (transform_vocabulary_counterexample), and its entry hrefLang names none."
  },
  {
   "property": "C146",
   "status": "partial",
   "theorems": [
    "Verif.Props.condense_commits",
    "Verif.Props.resize_commits",
    "Verif.Props.condense_one_by_one",
    "Verif.Props.resize_one_by_one",
    "Verif.Props.one_by_one_counterexample"
   ],
   "note": "The counts hold for every pattern of effective commits. The last sentence is proved for a manager that stores at every commit; it is false for a manager whose transaction object does nothing after its first commit (library behaviour, not in the repository; the transaction package is believed to be such a manager): then the first object is stored alone and all others together (one_by_one_counterexample). Missing also: condense of a container whose primary group is not first."
  },
  {
   "property": "C147",
   "status": "partial",
   "theorems": [
    "Verif.Props.module_size_partial",
    "Verif.Props.module_size_counterexample",
    "Verif.Props.module_size_in_block_counterexample",
    "Verif.Props.size_record"
   ],
   "note": "Proved: asking changes nothing stored or seen and leaves no connection open, after every history; a record shows path, name and the size of the last update that gave one. False of the code: a ContainerConnection has no attribute size, so module.size, sizes of groups and records made from modules always raise AttributeError; inside a with-db block of the same database the block does not close its connection any more. That ZODB.Connection has no attribute size either is a library assumption."
  },
  {
   "property": "C148",
   "status": "partial",
   "theorems": [
    "Verif.Props.condense_amid_partial",
    "Verif.Props.resize_amid_partial",
    "Verif.Props.amid_always",
    "Verif.Props.amid_log_complete",
    "Verif.Props.condense_amid_no_delete",
    "Verif.Props.amid_alone",
    "Verif.Props.condense_amid_delete_counterexample",
    "Verif.Props.condense_amid_none_counterexample"
   ],
   "note": "Proved for all histories of calls of other sessions between the transactions, with transfer or without deletions by the others. False of the code: a deletion by another session makes condense(transfer=True) raise KeyError, and with transfer=False brings the deleted id back with None as its object. Calls that overlap a commit are C103."
  },
  {
   "property": "C149",
   "status": "proved",
   "theorems": [
    "Verif.Props.Progress.first_commit_wins",
    "Verif.Props.Progress.conflicts_bounded",
    "Verif.Props.Progress.lone_call",
    "Verif.Props.Progress.call_conflicts_bounded",
    "Verif.Props.Progress.conflicts_unbounded"
   ],
   "note": "What the library itself refuses (split buckets and the like) is the storage refusing. There is no bound that does not count what others do (conflicts_unbounded)."
  },
  {
   "property": "C150",
   "status": "proved",
   "theorems": [
    "Verif.Props.Crash.durably_linearizable",
    "Verif.Props.Crash.after_crash",
    "Verif.Props.Crash.crash_alone"
   ],
   "note": "Durable linearizability. That a transaction is written completely or not at all is the library assumption."
  },
  {
   "property": "C151",
   "status": "proved",
   "theorems": [
    "Verif.Props.CrashBlocks.sessions_share_a_map_crashes",
    "Verif.Props.CrashBlocks.block_crash",
    "Verif.Props.CrashBlocks.crash_is_moves"
   ],
   "note": "That a transaction is written completely or not at all is the library assumption; what is proved is that the container and its groups show it so. With several groups the storage may refuse more (C98)."
  },
  {
   "property": "C152",
   "status": "proved",
   "theorems": [
    "Verif.Props.get_requests",
    "Verif.Props.requests_acceptable",
    "Verif.Props.document_alternate"
   ],
   "note": "Urls are judged as validate_url_partial (C55) describes; parsing of link headers, resolving of urls and the test for JSON types are parameters of the model; that requests follows redirects by itself is outside it."
  },
  {
   "property": "C153",
   "status": "proved",
   "theorems": [
    "Verif.Props.Archive.object_kept_as_text",
    "Verif.Props.Archive.saved_text_stays"
   ],
   "note": "For the objects of C88, with the options of the database as in C93 (strict mode not turned on, one session at a time). The objects themselves cannot be stored (C127)."
  },
  {
   "property": "C154",
   "status": "proved",
   "theorems": [
    "Verif.Props.EngineAttrs.attribute_iff",
    "Verif.Props.EngineAttrs.attribute_distinct",
    "Verif.Props.EngineAttrs.activitystreams_attributes"
   ],
   "note": "The attributes an engine has anyway (its methods) are not modelled; no class of the shipped package has such a name. Texts of property objects begin with < and are different, as in C81."
  },
  {
   "property": "C155",
   "status": "proved",
   "theorems": [
    "Verif.Props.Limited.session_is_limited",
    "Verif.Props.Limited.database_is_limited"
   ],
   "note": "Specification: Verif/Spec/Limited.lean (slots and limits; the slot of an id is its hash modulo the number of slots). One session at a time, objects are truthy; databases are not resized (ContainerConnection offers no resize)."
  },
  {
   "property": "C156",
   "status": "proved",
   "theorems": [
    "Verif.Props.Client.no_client_can_tell",
    "Verif.Props.Client.database_is_ideal"
   ],
   "note": "Specification: Verif/Spec/Client.lean and Spec/Limited.lean. One session at a time, objects are truthy; container and meta (internals) are no requests. Usage and status in exact arithmetic (C126: the same as with floats at these sizes)."
  },
  {
   "property": "C157",
   "status": "proved",
   "theorems": [
    "Verif.Props.SharedLimits.sessions_share_limits",
    "Verif.Props.SharedLimits.new_sessions_share_limits"
   ],
   "note": "Specification: Verif/Spec/SharedLimits.lean. Objects are truthy. One group (a database that was never resized), moves without resize; the argument ok of a commit stands for refusals by the storage, among them conflicts that BTrees or ZODB report although the values could be merged."
  },
  {
   "property": "C158",
   "status": "proved",
   "theorems": [
    "Verif.Props.Overshoot.slot_overshoot",
    "Verif.Props.Overshoot.total_overshoot",
    "Verif.Props.Overshoot.overshoot_reached"
   ],
   "note": "Stated on the database itself (ids whose read gives an object); proved on the shared map with limits of C157. One group, moves without resize, objects are truthy."
  },
  {
   "property": "C159",
   "status": "proved",
   "theorems": [
    "Verif.Props.Parties.no_parties_can_tell",
    "Verif.Props.Parties.new_parties_cannot_tell"
   ],
   "note": "Specification: Verif/Spec/Parties.lean (with Spec/SharedLimits and Spec/Client). Objects are truthy, one group, no resize; transactions are begun and ended by the programs (a call with autocommit is three steps). Usage and status in exact arithmetic."
  }
 ]
}