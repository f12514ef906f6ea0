"""Writes /verif/MANIFEST.json from the table below."""
import json, os
P = 'Verif.Props.'
T = []
def c(prop, status, theorems, note):
    T.append({"property": prop, "status": status,
              "theorems": [P + t for t in theorems.split()], "note": note})
c('C01','proved','numberOfCollections_correct numberOfCollections_prime numberOfCollections_error nextNumberOfCollections_correct','')
c('C02','proved','isPrime_correct isPrime_rounding isPrime_small','')
c('C05','proved','collection_refines_map collection_call_refines_map collection_error_no_effect collection_size_has','')
c('C06','proved','collection_views collection_range collection_values','')
c('C07','proved','collection_minKey collection_maxKey collection_popitem','')
c('C08','partial','collection_strict_limit_partial collection_default_limit_partial collection_strict_refuses collection_strict_limit_counterexample','False of the code for setdefault, which ignores the limit (counterexample proved); proved for all other calls.')
c('C04','proved','routing_total routing_surjective routing_insert routing_composite_counterexample','')
c('C10','proved','status_exact status_monotone collection_status group_status','')
c('C11','proved','group_refines_map group_call_refines_map group_get_has group_views','')
c('C13','partial','group_iterkeys_partial group_iterkeys_empty_id group_iterkeys_counterexample','False when the empty id is stored and no other collection has a key in bounds; proved otherwise, and the exact behaviour in that case is proved too.')
c('C14','partial','group_iteritems_partial group_iteritems_empty_id group_iteritems_counterexample','As C13.')
c('C15','partial','group_itervalues_partial group_itervalues_counterexample','False with falsy values; proved for truthy values.')
c('C16','proved','group_byValue collection_byValue','')
c('C17','partial','group_minKey_partial group_maxKey_partial group_popitem_partial group_minKey_counterexample group_no_collections','False when some collection has no key in bounds (ValueError); the exact condition is proved.')
c('C18','partial','group_strict_limit_partial group_insert_refuses group_strict_limit_counterexample','False for setdefault; proved for every other call.')
c('C19','partial','group_error_no_effect_partial group_update_error_partial group_update_atomic_counterexample','False for update with CollectionCapacityError.')
c('C20','partial','group_new group_new_custom group_new_custom_errors group_new_strict_counterexample','The strict argument is ignored by the code.')
c('C09','partial','collection_reinsert_counterexample collection_update_existing_partial group_reinsert_counterexample group_update_existing_partial container_rewrite_counterexample container_rewrite_partial','False of the code for insert and Container.write (counterexamples proved at collection, group and container level); proved for update, and for Container.write when the target collection has room.')
c('C12','proved','group_size group_maxSize container_sizes container_size_single','')
c('C21','proved','group_setStrict container_setStrict','')
c('C03','proved','container_new container_new_errors','')
c('C23','partial','container_write_partial container_write_counterexample','Needs the primary group first in group order; false otherwise (counterexample).')
c('C24','partial','container_delete_partial container_delete_error container_delete_counterexample','delete raises KeyError unless the groups holding the id come first; exact condition proved.')
c('C25','partial','container_read_partial container_read_truthy container_read_counterexample','False for falsy stored objects; proved for truthy ones.')
c('C26','partial','container_condense_partial container_condense_copy_partial container_condense_counterexample','Needs the primary group first (always so after new/resize).')
c('C28','proved','container_resize resize_spec','')
c('C30','partial','container_resize_counterexample container_resize_strict_partial','False of the code: resize never refuses a small capacity and always leaves the container non-strict (proved for every container); only the non-strict mode is kept.')
c('C32','proved','container_strict_limit','')
c('C27','partial','container_condense_crash_partial container_condense_tx_result container_condense_counterexample','Needs the primary group first (always so after new/resize).')
c('C29','partial','container_resize_crash_partial container_resize_crash_counterexample container_resize_loss container_resize_duplicates','False for condense=False, transfer=True with two or more groups: the other groups are lost on disk (proved for all such containers).')
c('C31','partial','container_condense_strict_counterexample container_condense_failure_partial container_condense_crash_partial','Without a transaction manager the id being moved is lost on failure (counterexample), all other ids keep their values; with a transaction manager nothing is lost.')
c('C33','partial','connection_create_overwrite connection_create_new_partial connection_primary_listed connection_create_counterexample','Refusal to overwrite proved in full; storing a new id needs the primary group to be listed (true for databases made by the code, connection_primary_listed) and room.')
c('C34','partial','connection_update_partial connection_update_counterexample','Proved when the primary group comes first and objects are truthy; false otherwise.')
c('C35','partial','connection_subscript_partial connection_subscript_counterexample','False for falsy objects.')
c('C36','partial','connection_autocommit_call connection_autocommit_history_partial connection_failed_commit_counterexample','Every single call proved in full incl. failing commits; histories proved while no commit fails; false after a failed commit.')
c('C37','proved','connection_block_atomic','')
c('C38','proved','connection_history','')
c('C39','partial','connection_pending_partial connection_pending_lost connection_pending_counterexample','Turning autocommit back on loses the pending calls at the next call (proved for every state).')
c('C40','partial','connection_autocommit_option_counterexample connection_autocommit_flag_partial connection_block_sets_autocommit connection_set_autocommit connection_default_commits','The constructor option never reaches the manager.')
c('C75','partial','database_create_discards database_create_counterexample database_create_default','False of the code for every existing database: the container is replaced by an empty one; only the other root entries are kept.')
c('C76','partial','database_open_crash_partial database_create_crash_counterexample','Proved for storages that have a root object; false for new storages.')
c('C43','proved','dbcontainer_refines_map','')
c('C44','partial','dbcontainer_expand_partial dbcontainer_expand_counterexample legacy_expand','False of the code: expand_size does not rehash, ids whose slot changes are lost (counterexample); proved for ids whose slot stays.')
c('C46','proved','registry_refines_map','')
c('C47','partial','group_read_partial group_read_duplicate_counterexample group_read_multiple_counterexample','Duplicates and multiple=True misbehave (counterexamples proved).')
c('C48','partial','create_dbmodule_spec delete_dbmodule_partial delete_dbmodule_frame delete_dbmodule_counterexample delete_dbmodule_slash_counterexample','create and the frame proved in full; delete also removes foreign files whose name begins with the module name (counterexamples).')
c('C45','partial','legacy_call_durable legacy_connection_partial legacy_default_manager_counterexample legacy_expand','Proved with a CitrineTransactionManager; with the default manager every create, update and delete raises AttributeError (proved for every database).')
c('C49','proved','context_balanced context_active_counterexample','The counterexample concerns the flag active of the manager, which the claim does not mention.')
c('C50','proved','contextual_dispatch contextual_replace contextual_register_frame','')
c('C51','partial','setter_validation setter_lists setter_tuple_counterexample','Proved for every value; tuples and sets are accepted like lists but stored as lists, so the stored value is then not equal to the given one (counterexample).')
c('C52','proved','nonnegative_history','')
c('C53','partial','timedelta_str_partial durationText_unique timedelta_str_injective timedelta_str_zero_counterexample timedelta_str_negative_counterexample','Proved for positive timedeltas; zero prints as "P" and negative ones with a stray minus sign (counterexamples).')
c('C54','proved','datetime_round_trip datetime_str_format datetime_read_back parse_stamp validator_exact datetime_aware_counterexample leap_second_counterexample early_year_counterexample','Also the whole format: what the validator accepts and what every text is read as. The counterexamples are limits outside the claim (zones, years below 1000, second 60).')
c('C55','partial','validate_url_partial url_host_counterexample id_stores_any_counterexample','Exact characterisation of validate_url proved; false of the code: only the first host character is checked, and properties store invalid URLs because the result of the validator is ignored (both proved for all such strings).')
c('C56','partial','data_exact_partial data_sound data_clash_counterexample data_none_counterexample','Exact for arguments without name clashes, sound for all; with clashes one property is lost, with include_none a None becomes the text "None" (counterexamples).')
c('C57','partial','handler_json_partial data_json_partial handler_plain handler_lists handler_idempotent data_keys_counterexample data_bool_counterexample','Proved for all value trees whose dictionaries have text keys; other keys are kept and booleans become texts (counterexamples).')
c('C58','partial','nested_no_context nested_exact_partial nested_context_counterexample','First half proved; second half false: nested objects lose every property whose name is part of "acontext", in particular context (proved for every value).')
c('C59','partial','cached_history fetched_once document_content secure_get secure_history_partial secure_cache_counterexample','Caching proved for all histories and network behaviours; the part about secure loaders is false when an insecure loader has cached the url (proved for every url).')
c('C61','partial','first_registration_wins register_unique registry_wf engine_registry backref_counterexample backref_partial','Proved for all sequences of registrations in any number of engines; the back-reference of a class to its engine is wrong if a class is registered in two engines.')
c('C62','partial','kept_classes_partial add_always_fails sub_always_fails sub_drops_properties engine_list_fails engine_add_fails engine_sub_fails','False: all six operations raise for all arguments (proved); the class lists computed on the way are right, the property list of a difference is always empty.')
c('C63','proved','set_once assign_result','')
c('C64','partial','build_iff build_unknown linking_exact class_properties package_lists build_object_as_property','Linking is exact for all mappings; listing a class that is no property raises AttributeError instead of ValueError.')
c('C65','partial','clone_terminates clone_order clone_each_once cloneBases_nearest clone_mro_partial clone_can_fail clone_one_shot','Termination, order and single cloning are proved for every hierarchy accepted by Python (C3 is modelled); creation of a clone can fail (TypeError) when a class between two packaged ones is left out, and one-shot iterators lose all classes but the first (counterexamples). Success and the exact mro are proved when the packaged classes come first in their mros.')
c('C84','partial','clone_resolves_partial clone_isinstance_partial clone_misresolves','False when a class that is not packaged overrides an attribute of a packaged ancestor (counterexample); proved for every other hierarchy without redundant bases.')
c('C69','partial','packaged_nonnegative nonnegative_rows unpackaged_collection packaged_total packaged_items_lost unpackaged_negative total_not_updated total_counts_characters','Non-negativity holds on packaged objects after every history; the number is right for new unpackaged collections; packaged collections lose their items (totalItems 0), unpackaged ones accept negative numbers, later assignments of items are not counted, the characters of a single string are.')
c('C71','partial','set_get_partial set_rejected set_get_atomic set_get_plain get_result get_unset slots_distinct hreflang_lost','Holds for all properties but hreflang, whose getter reads an attribute its setter does not write; strings may be stored as Links or datetimes, tuples as lists (StoredFor).')
c('C79','partial','shadowed_properties shadowed_reject unshadowed_accept','Nine properties refuse Objects because properties.py rebinds the name Object.')
c('C80','partial','arguments_kept_partial unknown_arguments_ignored type_is_class packaged_type_none packaged_items_lost unpackaged_collection packaged_total start_index required_arguments required_missing tombstone_former_type mro_c3','All arguments but type, items, totalItems, startIndex and hreflang are kept, for every class; the exceptions are described exactly.')
c('C86','proved','json_no_requests json_links json_dates','')
c('C70','proved','create_package_loads namespaces_distinct type_names_distinct package_complete mapping_known as_clones','')
c('C81','partial','links_not_loaded engine_types engine_classes known_types_loaded_partial','False of the code for Object and Link: linking the property `type` to them overwrites the class attribute their namespace is made from, so their documents raise AttributeError (top) or become None (nested). Proved for the other classes.')
c('C87','partial','loaded_properties_partial loaded_items_lost context_never_loaded','False of the code: items (and other item lists) of collections, hreflang and id of Mentions, formerType of Tombstones, and context are lost; totalItems/startIndex become 0 instead of None. The theorem says exactly what is kept for every class and property.')
c('C66','partial','read_keeps_partial read_raises change_keeps_partial change_raises change_raises_property change_loses change_half_done reading_loses reading_half_done','False of the code in general: values of read-only properties and values whose setter raises AttributeError are lost silently, and a refused value leaves a half-changed object (counterexamples). Proved: everything else is kept, for every class hierarchy and for all ActivityStreams classes.')
c('C82','partial','namespaces_after_reads types_known_after_reads reading_forgets_types change_ns change_sets_ns nsOf_spec nsOf_putNs unrelated_ns_kept','False of the code (counterexample reading_forgets_types); proved exactly which namespaces and types change, for every history of reads.')
c('C83','partial','refresh_exact properties_exact_partial registration_exact_partial properties_depend_on_history','False of the code without refresh: a cache of an ancestor is inherited (counterexample). Proved with refresh, and without it if no ancestor was asked before.')
c('C88','partial','round_trip_partial written_and_loaded tombstone_not_reloaded closed_not_reloaded duration_comes_back_as_text link_comes_back_bare','Proved for every object whose values are of the kinds listed in ComesBack (texts, numbers, lists, naive datetimes of whole seconds, bare Links, nested objects to any depth). False for the others: counterexamples for deleted, closed, duration and Links with more than an address.')
c('C72','partial','getPrimes_unbounded_partial getPrimes_max_counterexample','Without a maximum exactly the primes (and 0, 1) from min on are yielded in order; with a maximum nothing is yielded when min <= max (the test is reversed: counterexample).')
c('C67','partial','hrefOnly_link hrefOnly_list hrefOnly_other hrefOnly_idem_partial hrefOnly_idem_counterexample createLink_spec createLink_str linkable_iff href_of_created_partial href_nested_counterexample','False for lists in lists (their Links are not reduced), and reducing twice differs if a Link has a Link as its href (counterexamples); everything else proved for all values.')
c('C68','proved','expand_spec expand_link expand_no_engine expand_requests expand_other','')
c('C89','proved','in_use_reads','InUse: made by Container.new, any calls not turning strict mode on; truthy objects.')
c('C90','proved','in_use_write InUse.write','')
c('C91','proved','in_use_delete InUse.delete','')
c('C92','proved','in_use_condense in_use_resize in_use_default_groups','')
c('C93','proved','session_is_store database_is_store','Specification: Verif/Spec/Store.lean. Strict mode is not turned on; objects are truthy; one session at a time.')
c('C94','proved','group_discovers group_undiscovered group_default','')
c('C77','partial','module_create_counterexample module_create_default group_create_counterexample find_dbmodules_spec','False of the code: DbModule.create raises ImportError for every free name (generated __init__ imports a name that does not exist), so DbGroup.create_dbmodule never succeeds.')
c('C60','partial','from_json_builds nested_values nested_context document_context loads_unique plain_unchanged unknown_type_attribute_error nested_unknown_lost Mem.document_unchanged Mem.same_result','Exact characterisation for all documents, registries, expand results and constructors. False in part: an unknown type without default class raises AttributeError at the top and is silently None when nested. That the dictionary of the caller is not modified is Mem.document_unchanged, on the model with references, which Mem.same_result connects to the tree model.')
c('C85','proved','package_lookup getitem_result','')
c('C95','proved','date_text_exact date_setter_exact date_properties','')
c('C96','proved','vocabulary_types vocabulary_supertypes vocabulary_domains','Types, subtypes and domains against Spec/Vocabulary.lean, written from the W3C text. The class list and the is-a relation agree exactly; the domains agree except that every Object lacks context, every Link lacks attributedTo, and collections have orderedItems and unorderedItems in addition. (Finite tables, checked completely by the kernel; vocabulary_domains is for every name.)')
c('C97','proved','vocabulary_ranges hreflang_lost type_unchecked vocabulary_kept functional_single object_refused_counterexample text_refused_counterexample','For every value: assignment succeeds exactly for None, the values of the kinds in the range, and lists of these unless functional - but for the kinds listed in refused (counterexamples: the range of the vocabulary is not what is taken), the additional kinds listed in extra, and type of the classes below Object and Link (type_unchecked: anything is taken).')
c('C98','proved','sessions_share_a_map one_group_shares_a_map new_shared copies_refuse_counterexample','Every container in use (Container.new and any calls and resizes), every schedule, any number of sessions; one_group_shares_a_map: no extra refusals with one group; copies_refuse_counterexample: with several groups they exist. The behaviour of ZODB is the one described in Db/Concurrent.lean. Resize in a schedule and strict mode: see C103, C104 (false there).')
c('C99','proved','block_isolated copies_refuse_counterexample','Every reachable database and every interleaving; before, other and mine are plain maps. The condition for success to be exact cannot be dropped (copies_refuse_counterexample).')
c('C100','proved','calls_linearizable two_groups_past two_groups_not_serial_counterexample','Herlihy-Wing linearizability for every container in use, proved for every schedule; false for hand-made containers with the primary group not first (the two counterexample theorems together).')
c('C101','partial','block_serializable_partial write_skew_counterexample','False in general (write skew); true for blocks each of whose ids was changed by the block or not changed by others.')
c('C102','partial','others_invisible stale_read_counterexample','False; what holds instead (others_invisible): nothing that other sessions do changes what a session reads between its own moves.')
c('C103','partial','resize_apart_partial resize_loses_write_counterexample','False, for every id, object and size; proved for transactions that do not overlap, with any number of resizes.')
c('C104','partial','strict_limit_apart_partial strict_limit_counterexample','False: a concrete schedule of two sessions that both succeed; proved for transactions that do not overlap. By how much the limits can be exceeded: C158.')
c('C105','partial','threads_contexts_partial locked_contexts_partial context_stuck_counterexample context_lost_counterexample outsider_sees_json_counterexample locked_contexts_counterexample','What holds for every schedule, what holds if switches are not interrupted, and schedules in which the rest fails.')
c('C106','partial','cache_threads_partial cache_settles_partial whole_call cache_twice_counterexample','All but the last sentence, for every schedule; the last sentence is false (counterexample).')
c('C107','proved','group_usage group_usage_insert group_usage_none container_usage container_usage_counterexample','For containers the statement names the deviation from the docstring, shown by the counterexample. Floats are rationals.')
c('C108','partial','collection_strict_history group_strict_call group_strict_history_partial container_strict_call container_strict_history_partial strict_reads group_strict_history_counterexample container_strict_history_counterexample','Collections: all histories. Groups and containers: all histories in which no update, condense or resize was refused half-way; with one the statement is false (counterexamples).')
c('C109','proved','sessions_share_map_and_flag strict_conflict_counterexample','Every container in use, strict or not, every schedule without resize; the counterexample shows that the refusal of a commit by the flag alone does happen. Extends C98 to strict mode.')
c('C110','proved','apart_is_serial apart_state','Exact equality of containers, all modes and all calls; corollaries carry the single-user theorems over (C103, C104).')
c('C111','proved','container_assemble container_assemble_default container_assemble_bad_strict','The read clause is for truthy objects, as in C25.')
c('C112','proved','open_is_exclusive close_drops_nothing can_be_closed','Any history of open, close, with-blocks, calls, failing commits; calls on a connection are single steps here.')
c('C113','partial','with_db_block_partial exit_unentered with_db_counterexample','Proved for blocks of one database object that do not overlap; false when they overlap (counterexample).')
c('C114','partial','opened_like_new_partial block_ends_autocommit autocommit_switch reopened_flag_counterexample','All behaviour proved the same; only the reported autocommit flag differs (counterexample).')
c('C115','partial','container_contains_partial container_stubs_counterexample','False of the code: the methods are empty.')
c('C41','proved','database_open database_open_idempotent open_never_discards open_file_storage client_connect database_life','')
c('C42','partial','database_create_partial database_create_zero database_create_strict_counterexample','Capacity proved; the strict argument is ignored (proved for all arguments).')
c('C78','partial','group_destroy_counterexample group_destroy_partial group_destroy_empty_counterexample module_path_set_once','The module stays listed in the group (proved for every group), and the empty name deletes every file of the directory.')
c('C116','partial','open_storage_partial open_file_storage open_path_counterexample open_memory_counterexample open_new_object_counterexample open_databases_counterexample open_databases_file_storage open_taken_name_locks client_connect','Exactly which arguments work is proved; existing paths, None, new storage objects other than FileStorage, and databases= never do.')
c('C117','partial','citrine_setup citrine_setup_twice citrine_setup_pending_counterexample managed_setup_counterexample','Proved for CitrineConnection in a session without uncommitted changes; ManagedConnection.setup raises TypeError for every database without container.')
c('C118','partial','group_connect_partial group_connect_counterexample','All but the transaction manager.')
c('C119','partial','managed_init_partial managed_default_counterexample managed_operations_counterexample','False of the code; only making one under a free name of its own works.')
c('C120','proved','group_databases group_size_sum','')
c('C121','partial','data_recursion_partial data_returns_partial data_limit_irrelevant data_of_trees data_self_counterexample data_mutual_counterexample data_chain_counterexample','Exact condition proved: RecursionError iff something written is nested deeper than the limit; for some limit data returns iff nothing written contains itself. False as stated for cyclic and very deep graphs (counterexamples).')
c('C122','partial','item_exact item_unknown iterate_exact item_iterator_counterexample item_type_counterexample','Proved for texts, lists and tuples of names and for iteration; iterators give an empty dictionary, keys that are no texts a TypeError (counterexamples).')
c('C123','partial','transforms_counterexample transforms_ignored_partial','False of the code for every dictionary of functions; what is left is that the argument does no harm.')
c('C124','partial','relink_lookup relink_written_partial relink_refreshed link_counterexample unlink_counterexample','Attributes proved for all histories; what data() writes is right exactly if the names of the class did not change since its last refresh (iff proved, with counterexamples).')
c('C125','partial','property_object_partial attribute_probe property_object_counterexample','False of the code: every missing attribute raises ValueError.')
def findings():
    """Rewrites the table of findings in DESIGN.md: every property the unchanged code violates, in whole or in part."""
    root = os.path.join(os.path.dirname(__file__), '..')
    titles = {}
    for l in open(os.path.join(root, 'properties.jsonl')):
        d = json.loads(l); titles[d['id']] = d['title']
    rows = ['| id | property | what is and what is not true of the code |', '|---|---|---|']
    for c in sorted(T, key=lambda c: int(c['property'][1:])):
        if c['status'] != 'proved':
            ce = [t.split('.')[-1] for t in c['theorems'] if 'counterexample' in t]
            rows.append('| %s | %s | %s%s |' % (c['property'], titles[c['property']], c['note'].replace('|', '/'),
                ' Refuted by: ' + ', '.join('`%s`' % t for t in ce) + '.' if ce else ''))
    p = os.path.join(root, 'DESIGN.md')
    s = open(p).read()
    a, b = '<!-- findings -->', '<!-- end findings -->'
    i, j = s.index(a) + len(a), s.index(b)
    open(p, 'w').write(s[:i] + '\n' + '\n'.join(rows) + '\n' + s[j:])
c('C126','proved','fl_nearest isPrimeF_correct ceilDivF_eq numberOfCollectionsF_eq nextNumberOfCollectionsF_eq statusF_eq group_statusF_eq floatDiv_usage usage_figures_rounded huge_capacity_counterexample','Binary64 rounding is defined and shown to be round-to-nearest (fl_nearest); the bounds are needed (huge_capacity_counterexample). This also discharges the simplification of C01, C02, C10, C107 to exact numbers.')
c('C73','partial','connection_autocommit_call connection_failed_commit_counterexample connection_recovers_partial connection_recovers_block_partial','The call raises and the stored data is unchanged (connection_autocommit_call); later calls are not durable (proved for every state) until the program assigns autocommit = True or uses a block, after which everything is durable again (proved).')
c('C74','partial','connection_strict_lost connection_strict_counterexample connection_strict_block_partial','False for every state: the assignment is never stored while autocommit is on; inside a block it is stored and stays (proved).')
c('C127','partial','Pickle.storable_iff Pickle.loads_iff Pickle.storable_clones Pickle.loaded_unpackaged Pickle.packaged_call_counterexample Pickle.packaged_block_counterexample Pickle.stored_loads Pickle.storable_history_partial Pickle.stored_unpackaged','False for objects in which a packaged class occurs: its name leads to the original class, so pickle refuses it, the call raises and the session is left with a failed transaction, and a with block loses everything done in it. Proved: exactly the objects all of whose classes are found under their names can be stored, they load as they were, and histories that store only such objects go as if nothing were pickled.')
c('C128','partial','Live.call_spec Live.live_store_partial Live.disk_unchanged Live.stray_change_stored Live.stray_change_unstored Live.abort_keeps_change Live.update_previous','False: changes of an object in the database are written with the next change of a neighbour in its record, or silently lost, survive abort, and make update return the new contents as the previous ones (stray_change_stored, stray_change_unstored, abort_keeps_change, update_previous). Proved: while no object in the database is changed, every history is one of the transactional map of C93 with contents as they were when given; and without a call about an id of a record its stored contents never change. ZODB records are modelled with a fixed assignment of ids.')
c('C129','proved','Falsy.container_history_falsy Falsy.database_all_objects Falsy.python_falsy','Specification of the session: Verif/Spec/Store.lean with the reading of falsy objects stated in Props/Falsy.lean. Strict mode is not turned on; one session at a time.')
c('C22','partial','container_history_partial container_history_strict_partial Falsy.container_history_falsy Falsy.stale_object_counterexample','Proved for truthy objects and containers made by Container.new. False for falsy objects, which read skips: an older object can come back (Falsy.stale_object_counterexample); what holds for all objects is container_history_falsy, see C129.')
c('C130','partial','Crew.turns_partial Crew.returned_call_lost_counterexample Crew.dirty_read_counterexample Crew.aborted_block_stored_counterexample Crew.autocommit_flag_counterexample','Holds for threads that take turns, each turn a whole call or a whole with block (turns_partial, with failing commits and crashes). False otherwise: the transaction is per thread but the connection joins only the transaction of the thread that changed it first, so calls that returned are lost, uncommitted changes are read and aborted blocks are stored; the autocommit property is shared while autocommit is per thread. Interleavings inside one call are not modelled.')
c('C131','proved','Figures.database_figures Figures.database_strict_figures','Floats are rational numbers here (see C126). One session at a time; the session specification is Verif/Spec/Store.lean.')
c('C132','proved','Mem.document_unchanged Mem.shares_only_context Mem.context_shared Mem.context_shared_twice Mem.keeping_modest Mem.same_result Mem.means_view','For constructors that change nothing and make new objects from their arguments (shown in C134 of constructors that assign their arguments to properties, and here of one that keeps its arguments, keeping_modest). The recursion limit is a parameter: RecursionError is an outcome.')
c('C133','proved','Reads.read_plain Reads.read_link Reads.read_other Reads.write_link Reads.write_plain Reads.json_linked','Added after a mutant (audience without Link.expand) survived. That replies refuses the Links made from addresses is in C97.')
c('C134','proved','Alias.assign_changes_only Alias.stored_copy Alias.copy_lists_new Alias.callers_lists_free Alias.dictionary_shared Alias.list_read_is_stored Alias.validation_bypassed_counterexample Alias.build_changes_nothing Alias.build_keeps Alias.builds_modest Alias.stores_same','For dates the copy theorems say nothing (parsed dates are new objects). The Link class is assumed to make new objects and to change nothing, which is proved of classes that assign their arguments (build_changes_nothing, build_keeps). Recursion depth is a number; running out of it is an exception. That reading bypasses the setter is a finding (validation_bypassed_counterexample).')
c('C135','proved','MemData.data_changes_nothing MemData.result_is_new MemData.result_may_be_changed MemData.result_is_dict MemData.results_disjoint MemData.same_contents','The attributes of an object in the model are the values its getters return in the JSON context; that getters change nothing is assumed here (wrapped getters of packages do, C121 to C125). Dictionaries with keys that are no texts and iterables of other classes are left out of this model.')
c('C136','partial','Program.flat_program_partial Program.inner_block_drops_outer Program.inner_block_ends_outer Program.nested_block_partial Program.nested_block_counterexample','Proved for all programs without blocks inside blocks in which the storage refuses no commit of a single call (those of blocks may be refused; C73). With blocks inside blocks the claim is false (counterexample for all ids and objects); proved instead what is stored then, for all inner and later programs.')
c('C137','proved','Walk.construct_asks_nothing Walk.construct_web Walk.load_web Walk.walk_leads Walk.walk_fails Walk.leads_requests Walk.leads_inside Walk.leads_asked Walk.readAttr_getAttr Walk.load_truthy','For all networks given as functions (an address always gives the same answer). The specification of a walk is the inductive relation Leads, on objects as values; readAttr_getAttr relates reading a value to reading the attributes of an object. Methods and private attributes of objects are not modelled.')
c('C138','partial','Readme.readme_walk_partial Readme.readme_offline Readme.readme_addresses_counterexample Walk.list_links_not_opened','Proved for items that are written out in the page, with any classes that have these properties and any position; and what happens without the page. For items given as addresses the claim is false: proved that the expression raises AttributeError for all of them, whatever is at the address.')
c('C139','partial','Get.caller_headers_partial Get.caller_headers_counterexample Get.default_headers Get.get_reply_partial Get.get_status_counterexample','Each header the caller names once is sent with the value given, all others as by default; a header written in two cases is not sent as requests alone would send it, and the status of the response is never looked at.')
c('C140','partial','JsonText.loads_iff JsonText.loads_error JsonText.loads_dumps JsonText.dumps_json_partial JsonText.dumps_json_counterexample JsonText.dumps_injective JsonText.dumps_ascii JsonText.minified_shortest JsonText.json_reads_back_partial JsonText.from_text JsonText.from_other_text JsonText.json_keys_counterexample JsonText.text_round_trip_partial','loads is exactly the RFC 8259 grammar plus the three names NaN, Infinity and -Infinity, which dumps writes for floats that are no numbers; two keys that are written alike collide; the round trip has the limits of C88. The recursion limit and halves of surrogate pairs are not modelled.')
c('C141','partial','Readme.new_object_text Readme.object_made Readme.text_of_type Readme.readme_text_walk_partial Readme.ex_shipped','New objects in full; loading gives class, id and type when it gives anything (C81 has what is lost); the walk has the limits of C138. The order of the properties in a text is not modelled.')
c('C142','partial','JsonArgs.json_of_arguments_partial JsonArgs.new_value JsonArgs.nested_alone JsonArgs.not_shown_counterexample','All values of the named shapes; false of the code for the property context (never written) and for the properties that constructors lose (C80), not_shown_counterexample.')
c('C143','proved','Listing.listing_order Listing.listing_ancestors Listing.package_lookup Listing.subclass_hides','Namespaces are given as a function of the classes.')
c('C144','proved','Changing.walk_snapshot Changing.walk_steady Changing.snapshot_exists Changing.walks_each Changing.step_requests Changing.walk_leads_in Changing.walk_fails_in Changing.read_twice','Requests of the JSON-LD context loader are not counted; methods and attributes that are no properties are not part of walks.')
c('C145','partial','Stringify.stringify_plain Stringify.stringify_idempotent Stringify.stringify_plain_id Stringify.stringify_succeeds_iff Stringify.stringify_error Stringify.stringify_sequence Stringify.stringify_dict Stringify.stringify_dict_distinct Stringify.stringify_simple Stringify.transform_own_partial Stringify.transform_special Stringify.stringify_numbers_counterexample Stringify.stringify_merges_counterexample Stringify.stringify_tuple_key_counterexample Stringify.transform_result_counterexample Stringify.transform_table Stringify.transform_special_errors Stringify.transform_vocabulary_counterexample','All of stringify is proved. The last sentence is false: the entry named result converts the whole object and never looks at its result. The comment that every key and value becomes a string is false too: numbers stay numbers. Nothing in the repository calls this code; values that contain themselves are not modelled. The table lacks 15 properties of the vocabulary (transform_vocabulary_counterexample), and its entry hrefLang names none.')
c('C146','partial','condense_commits resize_commits condense_one_by_one resize_one_by_one one_by_one_counterexample','The counts hold for every pattern of effective commits. The last sentence is proved for a manager that stores at every commit; it is false for a manager whose transaction object does nothing after its first commit (library behaviour, not in the repository; the transaction package is believed to be such a manager): then the first object is stored alone and all others together (one_by_one_counterexample). Missing also: condense of a container whose primary group is not first.')
c('C147','partial','module_size_partial module_size_counterexample module_size_in_block_counterexample size_record','Proved: asking changes nothing stored or seen and leaves no connection open, after every history; a record shows path, name and the size of the last update that gave one. False of the code: a ContainerConnection has no attribute size, so module.size, sizes of groups and records made from modules always raise AttributeError; inside a with-db block of the same database the block does not close its connection any more. That ZODB.Connection has no attribute size either is a library assumption.')
c('C148','partial','condense_amid_partial resize_amid_partial amid_always amid_log_complete condense_amid_no_delete amid_alone condense_amid_delete_counterexample condense_amid_none_counterexample','Proved for all histories of calls of other sessions between the transactions, with transfer or without deletions by the others. False of the code: a deletion by another session makes condense(transfer=True) raise KeyError, and with transfer=False brings the deleted id back with None as its object. Calls that overlap a commit are C103.')
c('C149','proved','Progress.first_commit_wins Progress.conflicts_bounded Progress.lone_call Progress.call_conflicts_bounded Progress.conflicts_unbounded','What the library itself refuses (split buckets and the like) is the storage refusing. There is no bound that does not count what others do (conflicts_unbounded).')
c('C150','proved','Crash.durably_linearizable Crash.after_crash Crash.crash_alone','Durable linearizability. That a transaction is written completely or not at all is the library assumption.')

c('C151','proved','CrashBlocks.sessions_share_a_map_crashes CrashBlocks.block_crash CrashBlocks.crash_is_moves','That a transaction is written completely or not at all is the library assumption; what is proved is that the container and its groups show it so. With several groups the storage may refuse more (C98).')

c('C152','proved','get_requests requests_acceptable document_alternate','Urls are judged as validate_url_partial (C55) describes; parsing of link headers, resolving of urls and the test for JSON types are parameters of the model; that requests follows redirects by itself is outside it.')
c('C153','proved','Archive.object_kept_as_text Archive.saved_text_stays','For the objects of C88, with the options of the database as in C93 (strict mode not turned on, one session at a time). The objects themselves cannot be stored (C127).')
c('C154','proved','EngineAttrs.attribute_iff EngineAttrs.attribute_distinct EngineAttrs.activitystreams_attributes','The attributes an engine has anyway (its methods) are not modelled; no class of the shipped package has such a name. Texts of property objects begin with < and are different, as in C81.')
c('C155','proved','Limited.session_is_limited Limited.database_is_limited','Specification: Verif/Spec/Limited.lean (slots and limits; the slot of an id is its hash modulo the number of slots). One session at a time, objects are truthy; databases are not resized (ContainerConnection offers no resize).')


c('C156','proved','Client.no_client_can_tell Client.database_is_ideal','Specification: Verif/Spec/Client.lean and Spec/Limited.lean. One session at a time, objects are truthy; container and meta (internals) are no requests. Usage and status in exact arithmetic (C126: the same as with floats at these sizes).')


c('C157','proved','SharedLimits.sessions_share_limits SharedLimits.new_sessions_share_limits','Specification: Verif/Spec/SharedLimits.lean. Objects are truthy. One group (a database that was never resized), moves without resize; the argument ok of a commit stands for refusals by the storage, among them conflicts that BTrees or ZODB report although the values could be merged.')
c('C158','proved','Overshoot.slot_overshoot Overshoot.total_overshoot Overshoot.overshoot_reached','Stated on the database itself (ids whose read gives an object); proved on the shared map with limits of C157. One group, moves without resize, objects are truthy.')
c('C159','proved','Parties.no_parties_can_tell Parties.new_parties_cannot_tell','Specification: Verif/Spec/Parties.lean (with Spec/SharedLimits and Spec/Client). Objects are truthy, one group, no resize; transactions are begun and ended by the programs (a call with autocommit is three steps). Usage and status in exact arithmetic.')
if __name__ == '__main__':
    out = os.path.join(os.path.dirname(__file__), '..', 'MANIFEST.json')
    json.dump({"claims": T}, open(out, 'w'), indent=1)
    findings()
