{"id": "C01", "title": "Write-ahead log round trip", "statement": "Replaying a log file that was produced by a sequence of row inserts yields exactly those rows, in insertion order, and nothing else; replay never reports corruption for a log that was written completely.", "quantifier": "every finite sequence of rows (any key and value types, any sizes below 2^64 bytes) and every checksum function", "why_tests_cant": "the byte framing must be parsed back for every payload content, including payload bytes that look like headers; tests only try a few rows", "anchors": ["src/storage/src/db.rs: log_op, recover_op, try_recover_table, hash_crc32"]}
{"id": "C02", "title": "Damaged log records are never turned into rows", "statement": "If a log file opens without error then every row it produced came from a frame whose stored checksum equals the checksum of the payload that was decoded; a payload with a wrong checksum makes the open fail and no row after it is invented.", "quantifier": "every byte string on disk", "why_tests_cant": "corruption can hit any byte", "anchors": ["src/storage/src/db.rs: try_recover_table, hash_crc32"]}
{"id": "C03", "title": "A crash in the middle of an append loses at most the row being appended", "statement": "If the machine stops while a row is being appended (any prefix of the frame bytes reached the disk), the next open succeeds and returns all rows whose append had completed.", "quantifier": "every history of appends and every crash byte offset", "why_tests_cant": "needs every torn-write offset; tests close the file cleanly", "anchors": ["src/storage/src/db.rs: log_op, try_recover_table"]}
{"id": "C04", "title": "Table manifest round trip", "statement": "A table's manifest (schema, options, log number, levels, parts with their key ranges, statistics) read back after being written equals what was written.", "quantifier": "every manifest: every field list, level list, part list and every key value in a part's range, including negative integers", "why_tests_cant": "the integers and keys are unbounded combinations; sign/width conversions only break for particular values", "anchors": ["src/storage/src/table.rs: serialize_md, deserialize_md", "src/storage/src/db.rs: write_metadata, try_recover_table"]}
{"id": "C05", "title": "Reading a key from unflushed data returns the last write", "statement": "A point read that is answered from unflushed data returns the values of the most recently inserted row whose leading columns equal the key, and answers nothing iff no such row exists.", "quantifier": "every sequence of inserts and every key (full or prefix)", "why_tests_cant": "the last-write rule must hold for every interleaving of keys", "anchors": ["src/storage/src/memtable.rs: Memtable::get, push_value"]}
{"id": "C06", "title": "Insert stores each named value in its own column", "statement": "After a successful insert the new row has, in every non-key schema column, the value supplied under that column's name, NULL if none was supplied, and in the key columns the supplied key; rows already stored are unchanged; a rejected insert changes nothing.", "quantifier": "every schema, every list of named values in any order, every table state", "why_tests_cant": "argument orders and missing columns are unbounded", "anchors": ["src/storage/src/db.rs: OptiDBImpl::insert", "src/storage/src/memtable.rs: push_value"]}
{"id": "C07", "title": "Insert validates types and names", "statement": "An insert succeeds only if every supplied name is a column of the table and the value's type is that column's type; otherwise the insert fails and neither the log nor the table changes.", "quantifier": "every schema and every list of named values", "why_tests_cant": "all type/column combinations", "anchors": ["src/storage/src/db.rs: OptiDBImpl::insert"]}
{"id": "C08", "title": "New columns read as NULL for old rows and do not disturb them", "statement": "Adding a column keeps every stored row's existing cells and makes the new column NULL for each of them, for rows in memory and rows already flushed; adding a column whose name exists fails and changes nothing; column order is the order of addition.", "quantifier": "every history of inserts, flushes and column additions", "why_tests_cant": "rows live in several places with different schema versions", "anchors": ["src/storage/src/db.rs: add_field", "src/storage/src/memtable.rs: add_column", "src/storage/src/parquet/arrow_merger.rs: add_null_cols_to_chunk"]}
{"id": "C09", "title": "Schema changes survive restart together with unflushed rows", "statement": "After column additions and inserts in any order followed by a restart without flush, every row reads back with every value in the column it was inserted into.", "quantifier": "every history of inserts and column additions ending in a restart", "why_tests_cant": "the replayed records are positional and come from different schema versions", "anchors": ["src/storage/src/db.rs: recover_op, try_recover_table, add_field"]}
{"id": "C10", "title": "A scan of an append-only table returns exactly the inserted rows, in key order", "statement": "For a non-replacing table, a scan returns every inserted row exactly once (with duplicates preserved) and nothing else, in non-decreasing key order, regardless of how rows are spread over memory and flushed parts and of how parts are cut into chunks.", "quantifier": "every multiset of rows, every distribution over parts, every chunking, every array size >= 1, every tie-break of the internal priority queues", "why_tests_cant": "chunk boundaries, overlaps and ties produce unboundedly many merge shapes", "anchors": ["src/storage/src/db.rs: scan, write_level0, flush_log_", "src/storage/src/parquet/arrow_merger.rs: MergingIterator, merge_chunks, check_intersection", "src/storage/src/memtable.rs: chunk"]}
{"id": "C11", "title": "Merging row blocks keeps whole rows together", "statement": "When several sorted blocks are merged without replacement, the output consists of the input rows with all their columns intact (no cell moves to another row), sorted by key, one output row per input row.", "quantifier": "every list of sorted blocks with 1 or 2 key columns, every tie-break", "why_tests_cant": "per-column cursors have to stay in step for every reorder vector", "anchors": ["src/storage/src/parquet/arrow_merger.rs: merge_one_primitive, merge_two_primitives, merge_queue"]}
{"id": "C12", "title": "A replacing table returns the latest version of every key", "statement": "For a replacing table a scan returns exactly one row per key, namely the most recently inserted one, complete and unmixed.", "quantifier": "every history of inserts and flushes", "why_tests_cant": "depends on which block each version sits in and on row positions after dropped rows", "anchors": ["src/storage/src/parquet/arrow_merger.rs: merge_two_primitives, merge_queue", "src/storage/src/memtable.rs: chunk", "src/cmd/src/lib.rs: init_storage"]}
{"id": "C13", "title": "Flushing a replacing table's memory keeps one row per key", "statement": "For a replacing table with a two-column key the block produced from unflushed rows has strictly increasing keys, contains every key inserted, and each row in it is a row that was inserted; with an order-preserving sort it is the latest one.", "quantifier": "every sequence of inserts", "why_tests_cant": "run boundaries anywhere", "anchors": ["src/storage/src/memtable.rs: Memtable::chunk"]}
{"id": "C14", "title": "Flush does not change what readers see", "statement": "Flushing moves rows from memory to a part without changing the rows a scan returns, and the flushed part's recorded key range contains every key in it and is tight.", "quantifier": "every table state of an append-only table", "why_tests_cant": "any content", "anchors": ["src/storage/src/db.rs: flush_log_, write_level0", "src/storage/src/parquet/mod.rs: chunk_min_max"]}
{"id": "C15", "title": "A crash at any point of a flush neither loses nor duplicates rows", "statement": "If the process stops between any two file operations of a flush, reopening the table succeeds and a scan returns exactly the rows whose insert had been acknowledged.", "quantifier": "every table state and every crash point inside the flush", "why_tests_cant": "needs every crash point between file operations", "anchors": ["src/storage/src/db.rs: flush_log_, try_recover_table, gc"]}
{"id": "C16", "title": "Clean restart preserves the table", "statement": "Closing and reopening a table whose files are in a quiescent state yields the same schema, the same parts and the same rows.", "quantifier": "every history of inserts, flushes and compactions (no column addition while rows are unflushed)", "why_tests_cant": "histories are unbounded", "anchors": ["src/storage/src/db.rs: try_recover_table, write_metadata, flush_log_"]}
{"id": "C17", "title": "Compaction does not change what readers see", "statement": "A compaction of an append-only table leaves the multiset of rows returned by a scan unchanged.", "quantifier": "every level layout and every configuration of sizes and limits", "why_tests_cant": "part selection depends on sizes, overlaps and configuration", "anchors": ["src/storage/src/compaction.rs: determine_compaction, compact, Compactor::run"]}
{"id": "C18", "title": "Part identities are never reused", "statement": "Within one level, no two parts ever carry the same identifier and a new part never gets the identifier of a part that exists or existed in that level.", "quantifier": "every history of flushes and compactions", "why_tests_cant": "needs all histories", "anchors": ["src/storage/src/db.rs: write_level0, flush_log_", "src/storage/src/compaction.rs: compact"]}
{"id": "C19", "title": "A part file referenced by the manifest or by a reader is never garbage collected", "statement": "The background cleaner removes a part file only if it is not in the manifest and nobody has it open, and removes a log only if it is older than the current one.", "quantifier": "every directory content, manifest and set of open readers", "why_tests_cant": "all interleavings of opens, closes and cleaner passes", "anchors": ["src/storage/src/db.rs: gc", "src/storage/src/lib.rs: Fs::open, close, is_opened, try_remove_file"]}
{"id": "C20", "title": "Open-file accounting is balanced", "statement": "A file counts as in use exactly while there are more opens than closes of it; closing never affects other files.", "quantifier": "every sequence of open and close calls with balanced prefixes", "why_tests_cant": "sequences are unbounded", "anchors": ["src/storage/src/lib.rs: Fs"]}
{"id": "C21", "title": "A point read finds a stored key", "statement": "A point read by full key of a row that was inserted and not superseded returns that row, wherever it is stored.", "quantifier": "every table state and key", "why_tests_cant": "depends on overlap between parts", "anchors": ["src/storage/src/db.rs: get"]}
{"id": "C22", "title": "Compare-and-swap rejects stale writers", "statement": "After a reader fetched a row for update, a replace that presents a version different from the fetched one fails and changes nothing; a replace presenting the fetched version succeeds.", "quantifier": "every history of get_cas/replace on distinct keys within the cache size", "why_tests_cant": "histories unbounded", "anchors": ["src/storage/src/db.rs: get_cas, replace"]}
{"id": "C23", "title": "Every acknowledged insert survives concurrent flushes", "statement": "With several writers and flushers running concurrently, a row whose insert was acknowledged is in the table's files or its current log at every later moment, so a crash cannot lose it; and a scan started after the acknowledgement returns it.", "quantifier": "every interleaving of the lock-protected sections of insert, flush and scan", "why_tests_cant": "schedules are unbounded and the windows are a few instructions wide", "anchors": ["src/storage/src/db.rs: insert, flush, flush_log_, scan"]}
{"id": "C24", "title": "Backup followed by restore gives back the same database", "statement": "Restoring a backup taken while no one writes yields tables with the same schema, parts and rows.", "quantifier": "every set of tables, parts and logs", "why_tests_cant": "sizes and counts are unbounded; concatenated streams must split at the right offsets", "anchors": ["src/storage/src/db.rs: full_backup, full_restore"]}
{"id": "C25", "title": "Entity identifiers are unique and never reused", "statement": "In any sequential history, two create calls on the same entity collection never return the same identifier, also after deletions.", "quantifier": "every sequential history of create/update/delete", "why_tests_cant": "histories unbounded", "anchors": ["src/metadata/src/index.rs: next_seq, next_zero_seq", "src/metadata/src/events.rs", "src/metadata/src/dashboards.rs"]}
{"id": "C26", "title": "Concurrent creates never share an identifier", "statement": "Two concurrent create calls never return the same identifier.", "quantifier": "every interleaving of the reads, locks and commits of the transactions", "why_tests_cant": "schedule dependent", "anchors": ["src/metadata/src/index.rs: next_seq", "src/metadata/src/events.rs: create_", "src/metadata/src/lib.rs"]}
{"id": "C27", "title": "Name lookup is consistent with the records", "statement": "At any time looking an entity up by name returns exactly the live entity with that name; names of live entities are pairwise distinct; create and update fail with AlreadyExists iff another live entity has the name; after rename the old name is free; after delete the name is free.", "quantifier": "every sequential history of create/update/delete on a name-indexed collection", "why_tests_cant": "index and data are separate keys kept in step by hand", "anchors": ["src/metadata/src/index.rs: check_insert_constraints, insert_index, check_update_constraints, update_index, delete_index, get_index", "src/metadata/src/events.rs", "src/metadata/src/projects.rs", "src/metadata/src/accounts.rs"]}
{"id": "C28", "title": "Keys of different projects never collide", "statement": "The storage keys used for two different projects, two different collections or two different entities are different, and listing a collection never returns an entry belonging to another project or collection.", "quantifier": "every pair of projects, collections and ids", "why_tests_cant": "all pairs of ids/strings, prefix problems like 1 and 10", "anchors": ["src/metadata/src/lib.rs: project_ns, make_data_value_key, make_data_key, make_index_key, make_id_seq_key, list_data"]}
{"id": "C29", "title": "Dictionary encoding is a bijection", "statement": "For each (project, table, dictionary) encoding the same string always gives the same number, different strings get different numbers, and decoding a number returned by encoding gives back the string.", "quantifier": "every sequential history of encode/decode calls on any mixture of dictionaries", "why_tests_cant": "histories unbounded", "anchors": ["src/metadata/src/dictionaries.rs: get_key_or_create, create_key, get_value, get_key"]}
{"id": "C30", "title": "Group/user identity resolution is stable and injective", "statement": "Within a project and group type, resolving the same external id always returns the same internal id and different external ids get different internal ids.", "quantifier": "every sequential history of resolve calls (without merges)", "why_tests_cant": "histories unbounded", "anchors": ["src/metadata/src/groups.rs: get_or_create_, get_or_create_anonymous_id_"]}
{"id": "C31", "title": "Merging an anonymous visitor into a user keeps identities usable", "statement": "After merging an anonymous visitor with a known user both resolve to the same internal id and later resolutions of new visitors still succeed with fresh ids.", "quantifier": "every history of resolve and merge calls", "why_tests_cant": "the failure needs a merge followed by a new visitor", "anchors": ["src/metadata/src/groups.rs: merge_with_anonymous", "src/ingester/src/executor.rs: Executor<Track>::execute"]}
{"id": "C32", "title": "Custom events never contain themselves", "statement": "At any time in a sequential history of creates, updates and deletes, following references between custom events never returns to the starting event, and expanding a custom event into regular events terminates.", "quantifier": "every sequential history", "why_tests_cant": "cycles can be built by any sequence of updates", "anchors": ["src/metadata/src/custom_events.rs: validate_events, create, update, delete", "src/query/src/expr.rs: event_expression"]}
{"id": "C33", "title": "Custom events nest at most three levels deep", "statement": "At any time no custom event's expansion is deeper than the documented maximum nesting.", "quantifier": "every sequential history of creates and updates", "why_tests_cant": "depth can grow from below", "anchors": ["src/metadata/src/custom_events.rs: MAX_EVENTS_LEVEL, validate_events"]}
{"id": "C34", "title": "Organisation membership is symmetric", "statement": "An account is listed as a member of an organisation with role r iff the account lists that organisation with role r.", "quantifier": "every sequential history of organisation and account operations", "why_tests_cant": "two records updated by separate steps", "anchors": ["src/metadata/src/organizations.rs: create, add_member, remove_member, change_member_role", "src/metadata/src/accounts.rs: add_organization_, remove_organization_, change_organization_role_"]}
{"id": "C35", "title": "A project token identifies exactly one project", "statement": "Looking a project up by token returns the project with that token and no other; a string that is not a token of a live project is rejected.", "quantifier": "every sequential history of project creates, updates and deletes", "why_tests_cant": "index namespaces may clash only for particular names", "anchors": ["src/metadata/src/projects.rs: index_name_key, index_token_key, get_by_token, create, update"]}
{"id": "C36", "title": "A session is new iff the previous one expired", "statement": "For each user a hit is reported as starting a new session iff there is no live session record; the cleaner removes exactly the sessions idle for longer than the project's session duration and leaves all others.", "quantifier": "every sequence of hits and cleaner runs", "why_tests_cant": "depends on time gaps and order", "anchors": ["src/metadata/src/sessions.rs: set_current_time, check_for_deletion, clear_project"]}
{"id": "C37", "title": "Settings survive save and load", "statement": "Settings read back after saving equal the saved settings.", "quantifier": "every settings value", "why_tests_cant": "every field/value combination", "anchors": ["src/metadata/src/settings.rs: save, load, serialize, deserialize, validate"]}
{"id": "C38", "title": "At most one backup is waiting or running per request path", "statement": "Creating a backup is refused while another backup is in progress, so the creation path never makes two simultaneously pending backups.", "quantifier": "every sequential history of create and status updates", "why_tests_cant": "histories", "anchors": ["src/metadata/src/backups.rs: create, update_status, list"]}
{"id": "C39", "title": "A failed backup is never reported as completed", "statement": "If producing the backup archive fails, the backup's final recorded status is Failed.", "quantifier": "every outcome of the file-system and upload steps", "why_tests_cant": "failure combinations", "anchors": ["src/cmd/src/backup.rs: run_backup"]}
{"id": "C40", "title": "Property columns are distinct per project", "statement": "No two live properties of a project write to the same table column.", "quantifier": "every sequential history of property creates, updates, deletes", "why_tests_cant": "column numbering is shared between types", "anchors": ["src/metadata/src/properties.rs: create_, update, column_name, index_keys"]}
{"id": "C41", "title": "Records read back as written", "statement": "An event definition, dashboard, report, account, organisation, project or group value read back equals what was written.", "quantifier": "every record value", "why_tests_cant": "every field combination; options, lists and integer widths", "anchors": ["src/metadata/src/events.rs: serialize, deserialize", "src/metadata/src/dashboards.rs", "src/metadata/src/accounts.rs", "src/metadata/src/organizations.rs", "src/metadata/src/projects.rs", "src/metadata/src/groups.rs"]}
{"id": "C42", "title": "Access decisions follow the role tables exactly", "statement": "A permission check passes iff the caller's global role, organisation role or project role grants the permission per the published role tables (with administrators bypassing), and fails otherwise; anonymous callers are always refused.", "quantifier": "every caller context and every permission", "why_tests_cant": "all role/permission combinations and multiple memberships", "anchors": ["src/platform/src/context.rs: check_permission, check_organization_permission, check_project_permission", "src/common/src/rbac.rs"]}
{"id": "C43", "title": "Tenants are isolated", "statement": "A caller without a global administrator role is never granted access to a project of an organisation it has no role in.", "quantifier": "every caller context and every project", "why_tests_cant": "needs a second tenant", "anchors": ["src/platform/src/context.rs: check_project_permission"]}
{"id": "C44", "title": "Numeric property values are stored at the column's scale", "statement": "Two numeric property values are stored as equal cells iff they are numerically equal, and the stored cell denotes the supplied number.", "quantifier": "every decimal value", "why_tests_cant": "decimals with different scales", "anchors": ["src/ingester/src/lib.rs: property_to_value", "src/common/src/lib.rs: DECIMAL_SCALE"]}
{"id": "C45", "title": "A property value is stored with the declared type or rejected", "statement": "Converting an incoming property value yields a cell whose type is the property's column type, or an error, and integers keep their value.", "quantifier": "every property declaration and every value", "why_tests_cant": "type/value matrix plus integer ranges", "anchors": ["src/ingester/src/lib.rs: property_to_value"]}
{"id": "C46", "title": "Dictionary-encoded values can be decoded", "statement": "A string property stored through a dictionary column decodes back to the same string.", "quantifier": "every history and dictionary width", "why_tests_cant": "overflow only after 2^7 / 2^15 distinct values", "anchors": ["src/ingester/src/lib.rs: property_to_value", "src/metadata/src/dictionaries.rs", "src/query/src/physical_plan/dictionary_decode.rs"]}
{"id": "C47", "title": "Event timestamps use one unit", "statement": "Every row written to the events table for a tracking request carries the request's time in the table's time unit (milliseconds).", "quantifier": "every tracking request, new session or not", "why_tests_cant": "only session boundary rows are affected", "anchors": ["src/ingester/src/destinations/local/track.rs: send", "src/cmd/src/lib.rs: init_session_cleaner"]}
{"id": "C48", "title": "Identify stores group properties under the group's own dictionaries", "statement": "The string properties of an identify call for group g are encoded with the dictionaries of table group_g, which queries use to decode them.", "quantifier": "every identify request and group", "why_tests_cant": "needs a second group", "anchors": ["src/ingester/src/executor.rs: Executor<Identify>::execute"]}
{"id": "C49", "title": "Filtering by several values means what it says", "statement": "A property filter with operation 'equals' and a list of values selects rows whose value is one of them; with 'not equals' it selects the non-null rows whose value is none of them.", "quantifier": "every value list and row value, with SQL three-valued logic", "why_tests_cant": "lists of two or more distinct values", "anchors": ["src/query/src/expr.rs: named_property_expression", "src/query/src/logical_plan/expr.rs: multi_or, multi_and"]}
{"id": "C50", "title": "Query time ranges are inclusive intervals", "statement": "A time filter selects exactly the rows with from <= ts <= to where (from,to) is what the query's time specification denotes relative to the current time.", "quantifier": "every time specification, current time and row time", "why_tests_cant": "boundary instants", "anchors": ["src/common/src/query.rs: QueryTime::range, TimeIntervalUnit", "src/query/src/expr.rs: time_expression"]}
{"id": "C51", "title": "Count over events is independent of batching", "statement": "The grouped count equals, for each group, the number of rows passing the filter and belonging to the selected users, independent of how rows are cut into batches.", "quantifier": "every row sequence, filter, user set, grouping, every batching", "why_tests_cant": "all batch boundaries", "anchors": ["src/query/src/physical_plan/expressions/aggregate/count.rs: Count::evaluate, finalize"]}
{"id": "C52", "title": "Sum/min/max/avg over events equal their definition", "statement": "The grouped aggregate equals the mathematical aggregate of the non-null values of the selected rows per group, independent of batching.", "quantifier": "every row sequence, filter, user set, grouping, every batching", "why_tests_cant": "all batch boundaries", "anchors": ["src/query/src/physical_plan/expressions/aggregate/mod.rs: Aggregate::evaluate", "src/query/src/physical_plan/expressions/segmentation/aggregate.rs: AggregateFunction"]}
{"id": "C53", "title": "Parallel aggregation equals sequential aggregation", "statement": "Splitting users over several workers and combining their partial results gives the same result as one worker.", "quantifier": "every split of the rows over workers and every set of aggregates in one query", "why_tests_cant": "all splits", "anchors": ["src/query/src/physical_plan/segmented_aggregate.rs: combine_results, PartialAggregateStream, FinalAggregateStream"]}
{"id": "C54", "title": "Per-user counting aggregates per-user counts", "statement": "The per-user count query feeds the outer aggregate exactly once per user in a group with the number of that user's matching rows, independent of batching.", "quantifier": "every row sequence grouped by user, every batching", "why_tests_cant": "all batch boundaries and user boundaries", "anchors": ["src/query/src/physical_plan/expressions/aggregate/partitioned/count.rs: PartitionedCount::evaluate, finalize"]}
{"id": "C55", "title": "Funnel steps are monotone", "statement": "In every group and time bucket the number of users reaching step i+1 never exceeds the number reaching step i, and the drop-off of a step is the difference.", "quantifier": "every event sequence, step definitions, options and batching", "why_tests_cant": "all event sequences", "anchors": ["src/query/src/physical_plan/expressions/aggregate/partitioned/funnel/funnel.rs: push_result, evaluate"]}
{"id": "C56", "title": "Funnel conversions respect the conversion window and the step order", "statement": "Whenever a user is counted at step i, there are events of that user matching steps 1..i in time order all within the conversion window of the first one.", "quantifier": "every event sequence sorted by user and time, exact step order, every batching", "why_tests_cant": "all event sequences", "anchors": ["src/query/src/physical_plan/expressions/aggregate/partitioned/funnel/funnel.rs: evaluate"]}
{"id": "C57", "title": "Funnel counts do not depend on batching", "statement": "Cutting the same event sequence into batches differently does not change the funnel.", "quantifier": "every event sequence and every two batchings", "why_tests_cant": "all batch boundaries", "anchors": ["src/query/src/physical_plan/expressions/aggregate/partitioned/funnel/funnel.rs: evaluate"]}
{"id": "C58", "title": "Excluded events disqualify only their own user", "statement": "An exclusion event of one user never changes the counts of another user, and an exclusion restricted to a step range is enforced in that range.", "quantifier": "every event sequence", "why_tests_cant": "user boundaries", "anchors": ["src/query/src/physical_plan/expressions/aggregate/partitioned/funnel/funnel.rs: check_exclude, evaluate"]}
{"id": "C59", "title": "Segments restricting a funnel select their users", "statement": "A funnel restricted to a user segment counts exactly the users of the segment.", "quantifier": "every segment and event sequence", "why_tests_cant": "needs a non-empty segment", "anchors": ["src/query/src/physical_plan/funnel.rs: FunnelPartialExec::execute, PartialFunnelStream"]}
{"id": "C60", "title": "A behavioural segment contains exactly the matching users", "statement": "The per-user predicate 'did event at least n times in period' is reported for each user once, with the right truth value.", "quantifier": "every event sequence, operator and threshold, every batching", "why_tests_cant": "all batch boundaries", "anchors": ["src/query/src/physical_plan/expressions/aggregate/count.rs:140-230: Count::evaluate", "src/query/src/physical_plan/expressions/segmentation/time_range.rs", "src/query/src/physical_plan/expressions/segmentation/boolean_op.rs"]}
{"id": "C61", "title": "Combining behavioural predicates is per user", "statement": "The AND/OR of two per-user predicates gives for each user the AND/OR of that user's truth values.", "quantifier": "every pair of predicates and event sequences", "why_tests_cant": "needs users present in only one operand", "anchors": ["src/query/src/physical_plan/expressions/segmentation/comparison.rs: And, Or"]}
{"id": "C62", "title": "Unpivot keeps each value under its own column name", "statement": "Unpivoting produces for every input row and selected column exactly one output row carrying that column's name and value and the row's other cells.", "quantifier": "every batch, every selection of columns in any order", "why_tests_cant": "column order permutations", "anchors": ["src/query/src/physical_plan/unpivot.rs: unpivot"]}
{"id": "C63", "title": "Pivot places each value in its row and column", "statement": "Pivoting yields one row per distinct group with, in each result column, the last value given for that group and name, NULL if none.", "quantifier": "every batch sequence, any number of groups", "why_tests_cant": "buffer growth beyond the initial length and any arrival order", "anchors": ["src/query/src/physical_plan/pivot.rs: pivot_batch, finish"]}
{"id": "C64", "title": "Group limiting keeps the first rows of each value", "statement": "Limiting a breakdown column to n keeps at most n rows per value and drops a row only if a value of it had already reached its limit.", "quantifier": "every batch, every number of breakdown columns", "why_tests_cant": "any repetition pattern", "anchors": ["src/query/src/physical_plan/limit_groups.rs"]}
{"id": "C65", "title": "Merging result streams preserves every row", "statement": "Merging several result streams yields their rows in stream order, each labelled with its stream's name, missing columns NULL, other cells unchanged.", "quantifier": "every list of streams", "why_tests_cant": "column presence patterns", "anchors": ["src/query/src/physical_plan/merge.rs: MergeStream::poll_next_inner"]}
{"id": "C66", "title": "Time bucket columns cover the query range", "statement": "Truncating a timestamp to a bucket is idempotent, monotone, not later than the timestamp, and every timestamp in the queried range falls into one of the produced buckets.", "quantifier": "every timestamp, unit and range", "why_tests_cant": "calendar boundaries", "anchors": ["src/common/src/query.rs: date_trunc, time_columns", "src/query/src/physical_plan/expressions/aggregate/partitioned/funnel/funnel.rs: try_new"]}
{"id": "C67", "title": "Recovery replays the newest log", "statement": "Among the logs present in a table directory, opening the table replays the one with the greatest log id.", "quantifier": "every non-empty set of logs with ids below 10^16", "why_tests_cant": "ids are unbounded; the code orders paths as strings", "anchors": ["src/storage/src/db.rs: try_recover_table, log_name"]}
{"id": "C68", "title": "A scan releases the files it opened", "statement": "When a scan is over, whether read to the end, dropped early or failed, no part file counts as in use on its account.", "quantifier": "every set of parts and every way a scan can end", "why_tests_cant": "leaks only show as files that are never removed", "anchors": ["src/storage/src/db.rs: scan, ScanStream::poll_next", "src/storage/src/lib.rs: Fs"]}
{"id": "C69", "title": "Listings show exactly the live records", "statement": "Listing a module returns every live record exactly once and nothing else.", "quantifier": "every sequential history of requests to any modules", "why_tests_cant": "depends on the whole history and on keys of other modules not sharing the prefix", "anchors": ["src/metadata/src/events.rs: list", "src/metadata/src/teams.rs: list", "src/metadata/src/projects.rs: list", "src/metadata/src/backups.rs: list_"]}
{"id": "C70", "title": "Unique names under concurrent creates", "statement": "However create calls overlap, no two live records of a module share a unique field value.", "quantifier": "every interleaving of the reads, locks and commits of any number of create transactions", "why_tests_cant": "schedule dependent", "anchors": ["src/metadata/src/index.rs: check_insert_constraints", "src/metadata/src/teams.rs: create", "src/metadata/src/events.rs: create_"]}
{"id": "C71", "title": "Endpoints demand the right role", "statement": "A caller whose only role is Reader of a project can change nothing in it but add bookmarks and can touch no other project; deleting a project or schema takes an owner or administrator; installation endpoints take an administrator; a caller without roles is refused everywhere.", "quantifier": "every caller context, every endpoint, every project", "why_tests_cant": "endpoint times role combinations and lists of roles are unbounded", "anchors": ["src/platform/src/*.rs: check at the start of each endpoint", "src/common/src/rbac.rs"]}
{"id": "C72", "title": "Every kind of property value the API accepts can be stored", "statement": "For a property not seen before, a value of any kind the track API parses (date, string, number, boolean) is converted into a cell of the column type that the new property declares, so that the event can be stored.", "quantifier": "all properties names, all values of all kinds, all metadata states", "why_tests_cant": "Tests of property_to_value pick a data type and a matching value by hand; the declared type of a new property and the conversion of its value live in different crates and no test combines each kind.", "anchors": ["src/ingester/src/executor.rs:38-82", "src/ingester/src/lib.rs:94-138"]}
{"id": "C73", "title": "One bad request never stops ingestion", "statement": "Whatever requests a client sends, every later well-formed request is still answered: a request is left unanswered only when its own execution panics.", "quantifier": "every sequence of track and identify requests", "why_tests_cant": "the failing request may be arbitrarily long before the ones it disables, and each request alone is fine", "anchors": ["src/ingester/src/sources/http/mod.rs: App::track, App::identify", "src/ingester/src/executor.rs"]}
{"id": "C74", "title": "An accepted track request stores exactly one event row", "statement": "An accepted track request adds to the events table exactly one row for the event, carrying the project of the token, the resolved user, groups and event, a fresh record id and the request's time, preceded by one session row exactly when the user had no open session; earlier rows are only extended by NULLs for new columns.", "quantifier": "every request, metadata state and events table", "why_tests_cant": "depends on the whole chain from property resolution to the column insert", "anchors": ["src/ingester/src/executor.rs: Executor<Track>::execute", "src/ingester/src/destinations/local/track.rs: send", "src/storage/src/db.rs: insert"]}
{"id": "C75", "title": "Every opened session has its begin row", "statement": "Whenever a track request leaves a user with a session that was not open before, the row of the event Session Begin has been stored for that user.", "quantifier": "every request, accepted or not", "why_tests_cant": "needs a request that fails between the session update and the insert", "anchors": ["src/ingester/src/destinations/local/track.rs: send", "src/metadata/src/sessions.rs: set_current_time"]}
{"id": "C76", "title": "Client properties cannot override system columns", "statement": "Whatever names and values the properties of a track request have, the stored event row has the system's own values in project_id, group_0, event, event_id, created_at and the group columns.", "quantifier": "every property list", "why_tests_cant": "infinitely many property names", "anchors": ["src/ingester/src/destinations/local/track.rs: send", "src/storage/src/db.rs: insert"]}
{"id": "C77", "title": "Stored events decode to their own name", "statement": "The number in the event column of the row stored for an accepted track request is decoded by the dictionary of that column to the name of the event the request gave, now and after any further ingestion.", "quantifier": "every metadata history and request", "why_tests_cant": "the two numberings drift apart only after a particular earlier request", "anchors": ["src/metadata/src/events.rs: create_", "src/metadata/src/dictionaries.rs: _get_key_or_create", "src/ingester/src/lib.rs: property_to_value", "src/query/src/event_records.rs"]}
{"id": "C78", "title": "Identified users keep their identity", "statement": "A track request with both a user id and an anonymous id makes them one user: afterwards each id alone is resolved to the user of that request; a request with one id fixes the user of that id.", "quantifier": "every history, pair of ids and later requests", "why_tests_cant": "needs all orders of first appearance of the two ids", "anchors": ["src/ingester/src/executor.rs: Executor<Track>::execute 137-191", "src/metadata/src/groups.rs: merge_with_anonymous"]}
{"id": "C79", "title": "Ingestion is confined to the project of its token", "statement": "A track or identify request, accepted, refused or panicking, changes no metadata key outside the project its token belongs to (except project records, which hold the event counters), stores rows with that project's id only, leaves everything unchanged when the token is unknown, and keeps the metadata a state reachable by ordinary metadata calls.", "quantifier": "every request and sequence of requests", "why_tests_cant": "all failure points of the request chain", "anchors": ["src/ingester/src/executor.rs", "src/ingester/src/destinations/local/track.rs", "src/ingester/src/destinations/local/identify.rs"]}
{"id": "C80", "title": "Selecting an event selects exactly its rows", "statement": "A filter built from an event reference (by name, by id, or a custom event nested to any depth with filters) selects exactly the rows of that event, respectively of one of the member events satisfying its filters.", "quantifier": "every metadata content, event reference and row", "why_tests_cant": "nesting depth, filters and 64-bit identifiers are unbounded; tests use small ids", "anchors": ["src/query/src/expr.rs: event_expression, event_filters_expression"]}
{"id": "C81", "title": "Filtering a dictionary-encoded property by strings selects the rows with those strings", "statement": "A filter 'equals' with a list of strings on a dictionary-encoded property selects exactly the rows whose stored string is in the list.", "quantifier": "every history of metadata requests, every list of strings (known or not) and row", "why_tests_cant": "depends on the encoding history and on strings never seen before", "anchors": ["src/query/src/expr.rs: prop_expression, encode_property_dict_values"]}
{"id": "C82", "title": "Per-user property aggregates", "statement": "An aggregate of a property per user feeds the outer aggregate once per user of a group, with the inner aggregate of exactly that user's non-NULL values in the group.", "quantifier": "every row sequence grouped by user, every inner and outer function, every batching", "why_tests_cant": "NULLs, users spanning batches and groups interleaved", "anchors": ["src/query/src/physical_plan/expressions/aggregate/partitioned/aggregate.rs: evaluate, finalize"]}
{"id": "C83", "title": "Segments of an event segmentation restrict it to their users", "statement": "With segments given, the result for each segment is the aggregate over the events of exactly the users of that segment.", "quantifier": "every list of segments and users", "why_tests_cant": "one, two and many segments; users outside", "anchors": ["src/query/src/physical_plan/planner/mod.rs: PartitionedAggregatePartialNode", "src/query/src/physical_plan/segmented_aggregate.rs: CollectSegments"]}
{"id": "C84", "title": "Unique funnel counting counts a user once", "statement": "With unique counting the completed conversions of a group belong to different users and no user is counted twice at any step.", "quantifier": "every event sequence and every batching", "why_tests_cant": "needs users retrying and batch boundaries", "anchors": ["src/query/src/physical_plan/expressions/aggregate/partitioned/funnel/funnel.rs: evaluate (skip_partition), push_result"]}
{"id": "C85", "title": "Every conversion of a user is found", "statement": "A user with events for the first m steps in order within the conversion window of the first one, without excluded events in between, is counted at step m.", "quantifier": "every event sequence sorted by user and time", "why_tests_cant": "all positions of the conversion among other events", "anchors": ["src/query/src/physical_plan/expressions/aggregate/partitioned/funnel/funnel.rs: evaluate"]}
{"id": "C86", "title": "Funnel ratios and averages follow from the counts", "statement": "The reported conversion ratio is the percentage of the first step's total, and the average times are the total times divided by the number of users, also after results of several workers are combined.", "quantifier": "every funnel result, any number of workers", "why_tests_cant": "needs several workers with different totals", "anchors": ["src/query/src/physical_plan/expressions/aggregate/partitioned/funnel/funnel.rs: finalize", "src/query/src/physical_plan/funnel.rs: aggregate, FunnelFinalExec"]}
{"id": "C87", "title": "The result table shows each aggregate under its own date", "statement": "Unpivoting the aggregate columns and pivoting over the dates yields one row per breakdown and aggregate, with the aggregate's value under each date and NULL where there is none.", "quantifier": "every aggregate table with at most one row per breakdown and date, every set of aggregates and dates", "why_tests_cant": "composition of two operators over arbitrary sparsity patterns", "anchors": ["src/query/src/event_segmentation.rs: build_event_logical_plan", "src/query/src/physical_plan/unpivot.rs: unpivot", "src/query/src/physical_plan/pivot.rs: pivot_batch, finish"]}
{"id": "C88", "title": "Result labels are renamed simultaneously", "statement": "A listed label becomes its own replacement even if the replacement is itself listed; other labels and NULL are unchanged.", "quantifier": "every rename list with distinct sources, every label", "why_tests_cant": "chained rename entries", "anchors": ["src/query/src/physical_plan/rename_column_rows.rs: poll_next"]}
{"id": "C89", "title": "Kinds of groups are at most five, distinct and permanent", "statement": "A kind of groups (user, company, ...) named in a request keeps its number for ever, two names of a project never share a number, the numbers are 0 to 4, and an unknown name is refused, without any change, exactly if all five numbers are taken.", "quantifier": "every history of requests to the metadata store, every project and name", "why_tests_cant": "all orders of requests, interleaved with requests to every other module", "anchors": ["src/metadata/src/groups.rs: get_or_create_group", "src/metadata/src/index.rs: next_zero_seq", "src/common/src/lib.rs: GROUPS_COUNT"]}
{"id": "C90", "title": "Updating a group merges its property values", "statement": "After an update of a group with values for different properties, each property mentioned has its new value, every other property of the group keeps its value, other groups are untouched, and reading the group gives what the update answered.", "quantifier": "every history, every group, every list of values for different properties", "why_tests_cant": "the merge depends on which ids are stored already, in which order", "anchors": ["src/metadata/src/groups.rs: create_or_update", "src/metadata/src/groups.rs: serialize_group_values"]}
{"id": "C91", "title": "A crash at any point of a compaction neither loses nor duplicates rows", "statement": "If the process dies while a compaction merges parts, writes the manifest, or deletes and renames part files, then reopening the database shows exactly the rows the table had before the compaction.", "quantifier": "every table state reachable by inserts, flushes and compactions, every set of compaction options, every merge function that satisfies its contract, and every crash point of the round", "why_tests_cant": "the crash points of a round with many merges and moves cannot be enumerated, and a test harness cannot tear writes", "anchors": ["src/storage/src/compaction.rs: Compactor::run", "src/storage/src/compaction.rs: compact", "src/storage/src/db.rs: write_metadata", "src/storage/src/db.rs: recover", "src/storage/src/parquet/parquet_merger.rs: merge"]}
{"id": "C92", "title": "Properties attached to an event stay attached, each once", "statement": "After a property is attached to an event, reading the event lists it, exactly once however often it is attached; detaching it removes it and nothing else; the properties attached before stay in their order.", "quantifier": "every history of metadata requests, every event, every list of properties", "why_tests_cant": "the lists pass through a store and a codec shared with every other request; tests of them are commented out in the code", "anchors": ["src/metadata/src/events.rs: attach_property!", "src/metadata/src/events.rs: detach_property!", "src/metadata/src/events.rs: try_attach_properties", "src/metadata/src/events.rs: deserialize"]}
{"id": "C93", "title": "A bookmark opens as it was saved, for its own account, until it is deleted", "statement": "Looking up a bookmark finds exactly what the account saved under that identifier in that project, independent of any other request; another account or project finds nothing; a deleted bookmark is not found.", "quantifier": "every history of metadata requests, every project, account and identifier", "why_tests_cant": "all interleavings with requests to every other module, and all collisions of random identifiers", "anchors": ["src/metadata/src/bookmarks.rs: create", "src/metadata/src/bookmarks.rs: get_by_id", "src/metadata/src/bookmarks.rs: delete"]}
{"id": "C94", "title": "Merging part files keeps every row whole and in order", "statement": "Merging any part files of a table that does not replace rows succeeds; the files written contain exactly the rows of the inputs, each with all its values and NULL for columns its file lacks, sorted by key over all files, no file empty, with right row counts and key ranges.", "quantifier": "every number of part files, every layout of row groups and pages, every page statistics that bound the keys, every tie break of the priority queues, every size limit, keys of one to three columns", "why_tests_cant": "row group and page boundaries interact with the queue of overlapping chunks and with the cursor of each column", "anchors": ["src/storage/src/parquet/parquet_merger.rs: merge, next_index_chunk, merge_queue, check_intersection, merge_chunks", "src/storage/src/parquet/merge_data_arrays.rs: merge_arrays_inner", "src/storage/src/parquet/mod.rs: CompressedPageIterator"]}
{"id": "C95", "title": "Compacting a replacing table keeps one row per key", "statement": "Merging part files of a replacing table with a two-column key leaves exactly one row for every key of the inputs, complete and unmixed, in key order.", "quantifier": "every list of part files, every layout", "why_tests_cant": "which rows are dropped depends on the overlap of chunks, and wrong values only show in columns next to the dropped rows", "anchors": ["src/storage/src/parquet/parquet_merger.rs: merge_two_primitives, check_intersection", "src/storage/src/parquet/merge_data_arrays.rs: merge_arrays_inner", "src/cmd/src/lib.rs: init_storage"]}
{"id": "C96", "title": "A compaction in the background loses no row", "statement": "Whatever the interleaving of inserts, flushes, scans, passes of the garbage collector and the steps of the compactor, the compactor does not die, and whenever no rename is outstanding the table and the table found by a restart contain exactly the inserted rows.", "quantifier": "every number of levels, every history of interleaved steps, every sane configuration, every merge with the properties of C94", "why_tests_cant": "the compactor works on a copy of the metadata for minutes; the harmful schedules need a thread switch between two system calls", "anchors": ["src/storage/src/compaction.rs: Compactor::run, compact", "src/storage/src/db.rs: gc, flush_log_", "src/storage/src/lib.rs: Fs"]}
{"id": "C97", "title": "A scan during a compaction finds its files", "statement": "A scan returns exactly the rows inserted before it started, whatever inserts, flushes, scans, passes of the garbage collector and compactor steps happen until it has ended.", "quantifier": "every history before the scan and every interleaving during it", "why_tests_cant": "the window between the copy of the metadata and the opening of the last file is short", "anchors": ["src/storage/src/db.rs: scan, ScanStream, gc", "src/storage/src/compaction.rs: Compactor::run"]}
{"id": "C98", "title": "Nobody acts for an account without having shown that it is theirs", "statement": "Whoever presents a token which is accepted for an account has earlier logged in to that account with a password its stored hash verifies, or made the account by signing up.", "quantifier": "every history of sign-ups, log-ins, refreshes, account changes, administration and other requests, by any number of people", "why_tests_cant": "an impersonation may need a particular sequence of calls mixing several accounts' tokens", "anchors": ["src/platform/src/auth/provider.rs: sign_up, log_in, refresh_token, make_tokens", "src/platform/src/auth/token.rs", "src/platform/src/context.rs: from_request_parts"]}
{"id": "C99", "title": "Passwords and addresses change only by right", "statement": "The stored password or address of an account changes only by its holder, who proves the old password or was asked for a new one, or by an administrator; an account logs in with the password last stored and with no other.", "quantifier": "every reachable state and step", "why_tests_cant": "tests exercise the intended calls, not all calls in all states", "anchors": ["src/platform/src/auth/provider.rs: update_password, set_password, update_email, set_email", "src/platform/src/accounts.rs: update"]}
{"id": "C100", "title": "Deleting an account revokes its tokens for ever", "statement": "Once an account has been deleted no token for it is accepted in any later state.", "quantifier": "every later history", "why_tests_cant": "identifiers could be reused after any number of requests", "anchors": ["src/platform/src/context.rs: from_request_parts", "src/metadata/src/accounts.rs: delete", "src/platform/src/accounts.rs: delete"]}
{"id": "C101", "title": "A token names an organization of its account", "statement": "Whenever a token is made, its account is a member of the organization named in it, if any; members can switch to their organizations.", "quantifier": "every reachable state and call", "why_tests_cant": "needs two accounts or a change of membership between two calls", "anchors": ["src/platform/src/auth/provider.rs: log_in, refresh_token, switch_organization", "src/platform/src/http/auth.rs: refresh_token"]}
{"id": "C102", "title": "A refresh token renews an expired access token", "statement": "A valid refresh token of an account yields a new pair of tokens, whether or not the access token has expired.", "quantifier": "every state, time and pair of tokens", "why_tests_cant": "tests do not wait for tokens to expire", "anchors": ["src/platform/src/http/auth.rs: refresh_token", "src/platform/src/auth/provider.rs: refresh_token", "src/platform/src/context.rs: from_request_parts"]}
{"id": "C103", "title": "The settings endpoint stores what it is given", "statement": "An accepted request sets every field it contains and no other; a refused one changes nothing; every provider of backups can be chosen.", "quantifier": "every stored setting and request", "why_tests_cant": "each of eighteen fields, alone and combined", "anchors": ["src/platform/src/settings.rs: set, get", "src/metadata/src/settings.rs: validate, save"]}
{"id": "C104", "title": "Only administrators make administrators", "statement": "An account has the administrator role only if it had it before or was made by an administrator with it.", "quantifier": "every reachable state and step", "why_tests_cant": "an escalation may need any sequence of calls", "anchors": ["src/platform/src/accounts.rs: create, update", "src/platform/src/auth/provider.rs: sign_up", "src/metadata/src/accounts.rs"]}
{"id": "C105", "title": "Changing the password ends other sessions", "statement": "After the password of an account has changed, no token made before is accepted.", "quantifier": "every history", "why_tests_cant": "needs a second session", "anchors": ["src/platform/src/auth/provider.rs: update_password, make_tokens", "src/platform/src/context.rs: from_request_parts"]}
{"id": "C106", "title": "The settings endpoint reveals no secret", "statement": "The answers of the settings endpoint are the same for settings which differ in signing keys, passwords and secret keys only, and only administrators get one.", "quantifier": "every pair of such settings and every caller", "why_tests_cant": "non-interference relates two runs", "anchors": ["src/platform/src/settings.rs: get, set"]}
{"id": "C107", "title": "Signing keys are never empty and survive restarts", "statement": "After every start, and after every request to the settings endpoint, the signing keys are not empty; a restart keeps them.", "quantifier": "every stored setting, every sequence of starts and requests", "why_tests_cant": "the space of sequences", "anchors": ["src/cmd/src/lib.rs: init_settings", "src/platform/src/settings.rs: set", "src/metadata/src/settings.rs: validate"]}
{"id": "C108", "title": "An update changes what it mentions and nothing else", "statement": "After a successful update of a team, organization, event, account, custom event, dashboard, report, property or project, reading the record shows every field the request mentions with the requested value, every other field as before, the time and author of the update, and all other records of the kind are as before.", "quantifier": "every history of metadata requests, every record, every update request", "why_tests_cant": "one test per field and record misses fields that are silently dropped, and cannot range over the states of the store", "anchors": ["src/metadata/src/accounts.rs: update", "src/metadata/src/reports.rs: update", "src/metadata/src/events.rs: update", "src/metadata/src/properties.rs: update", "src/metadata/src/projects.rs: update", "src/metadata/src/dashboards.rs: update", "src/metadata/src/custom_events.rs: update", "src/metadata/src/teams.rs: update", "src/metadata/src/organizations.rs: update"]}
{"id": "C109", "title": "An accepted event stores each of its properties as sent", "statement": "Each property of an accepted track request, and each part of its campaign in the row that opens a session, is stored in the column of the property of that name, and the cell reads, then and ever after, as the value sent; a property not seen before is declared as an optional, visible property of the kind of its value, with a column of its own.", "quantifier": "every track request, every history of requests before and after it", "why_tests_cant": "the property may have been declared at any time before, share its column name's stem with others, and share its dictionary with any number of later values", "anchors": ["src/ingester/src/executor.rs: resolve_property, resolve_properties, property_to_value, Executor<Track>::execute", "src/ingester/src/destinations/local/track.rs: Destination<Track>::send", "src/metadata/src/properties.rs: get_or_create, column_name", "src/metadata/src/dictionaries.rs"]}
{"id": "C110", "title": "Every stored event has a number of its own", "statement": "The rows stored for a project in the events table carry rising, hence distinct, event numbers, whatever requests were accepted, refused or failed on the way; likewise the versions of the rows of a kind of groups.", "quantifier": "every sequence of ingestion and metadata requests", "why_tests_cant": "a duplicate needs a particular sequence of failures and requests of other projects", "anchors": ["src/metadata/src/events.rs: next_record_sequence", "src/metadata/src/groups.rs: next_record_sequence", "src/metadata/src/index.rs: next_seq", "src/ingester/src/destinations/local/track.rs: Destination<Track>::send", "src/ingester/src/destinations/local/identify.rs: Destination<Identify>::send"]}
{"id": "C111", "title": "An accepted identify request stores the current values of its group", "statement": "The row stored by an accepted identify request carries the number of its group and the current value of every property the group has: those of the request, which read, then and ever after, as sent, and all earlier ones unchanged.", "quantifier": "every identify request, every history of requests before and after it", "why_tests_cant": "a value set long ago, by another request, must be merged into the row, and properties may have been declared in any order", "anchors": ["src/ingester/src/executor.rs: Executor<Identify>::execute", "src/ingester/src/destinations/local/identify.rs: Destination<Identify>::send", "src/metadata/src/groups.rs: create_or_update"]}
{"id": "C112", "title": "An event carries the current properties of its user and groups", "statement": "The row of an accepted event has, for each of its groups and for its user, the number of the group in the column of its kind, and the value each of the group's properties has at that time in the column of the property.", "quantifier": "every track request, every history of requests before it", "why_tests_cant": "the columns of properties of up to five kinds of groups, of the event and of the system share one row; a clash needs a particular history of declarations", "anchors": ["src/ingester/src/executor.rs: Executor<Track>::execute", "src/ingester/src/destinations/local/track.rs: Destination<Track>::send", "src/metadata/src/groups.rs: get_or_create"]}
{"id": "C113", "title": "From level 1 on the parts of a level cover separate key ranges", "statement": "After every history of inserts, flushes and compactions of a table, any two parts of the same level (level 1 and deeper) have key ranges that do not overlap, so that compaction of the level above has to read only the overlapping parts and a key is held by at most one part per level.", "quantifier": "for all histories of inserts, flushes and compactions, all options, all layouts of the merge outputs, all pairs of parts of a level", "why_tests_cant": "The ranges depend on which parts earlier compactions selected; the selection compares ranges of parts produced by arbitrary earlier merges and moves, and tests only build a few levels by hand.", "anchors": ["src/storage/src/compaction.rs:197-253", "src/storage/src/compaction.rs:255-400"]}
{"id": "C114", "title": "An acknowledged change of an account is in force", "statement": "When update_name, update_email, update_password, set_password or set_email answers successfully, the caller's account is stored with exactly the requested name, address, password hash and cleared duty flag, everything else it is known by is as before and no other account has changed; afterwards the account logs in with the new password and with no other. An acknowledged update by an administrator has stored every field of the request.", "quantifier": "for all histories of account calls and other metadata requests, all callers, tokens, passwords and addresses", "why_tests_cant": "It relates the answer of a call to the state left behind over any earlier history, including refused calls and concurrent changes of the indexes by address.", "anchors": ["src/platform/src/auth/provider.rs:152-320", "src/platform/src/accounts.rs:62-89", "src/metadata/src/accounts.rs:121-167"]}
{"id": "C115", "title": "What the user agent and the address of a request tell is stored with the event", "statement": "The row of an accepted event has, under the property of each name the user-agent parser or the address database reports (client, device, system and their versions, country, city), the reported value, unless the client sent a property of that name itself, which then is what is stored; the column of a property that was neither sent nor reported is empty. Detecting something never makes a request refused that would otherwise be accepted.", "quantifier": "for all parsers and databases, requests, histories of metadata requests, later requests", "why_tests_cant": "The values pass through lookup by name, column allocation and dictionaries whose state depends on all earlier requests; tests use one user agent and one address on a fresh project.", "anchors": ["src/ingester/src/transformers/user_agent/mod.rs:19-191", "src/ingester/src/transformers/geo/mod.rs:16-54", "src/ingester/src/transformers/geo/track.rs:30-54", "src/ingester/src/transformers/user_agent/track.rs:26-42", "src/cmd/src/lib.rs:320-331"]}
{"id": "C116", "title": "A chart of an event counts the accepted requests", "statement": "The value which a segmentation query for the count of an event shows for an interval is the number of track requests which the server answered with success for the project, with the name of the event, within the range of the query (in milliseconds) and within the interval; intervals without such requests show nothing, and every interval with a value has a column.", "quantifier": "for all histories of requests of sources and administrators (none renaming or deleting an event of the project), all projects, events other than the automatic Session Begin, ranges and units, all distributions of the stored rows over workers and batches", "why_tests_cant": "It is end to end: token, event name, event number, row, filter, truncation of time, partial counts and their combination; tests check each of these on fixed data.", "anchors": ["src/ingester/src/executor.rs:60-330", "src/ingester/src/destinations/local/track.rs:60-300", "src/query/src/event_segmentation.rs:735-874", "src/query/src/physical_plan/expressions/aggregate/count.rs:140-230", "src/query/src/physical_plan/segmented_aggregate.rs:60-120"]}
{"id": "C117", "title": "A query reads only rows of its project", "statement": "Every row kept by the row filter of a segmentation query, a funnel, a search for events or groups, a look-up by identifier or a list of property values, and every row a segment condition of a query looks at, belongs to the project the query is made for.", "quantifier": "for all queries, metadata, rows and projects", "why_tests_cant": "Tests run queries with one project in the tables, where a missing filter is not visible.", "anchors": ["src/query/src/event_segmentation.rs:258-299", "src/query/src/event_segmentation.rs:735-771", "src/query/src/funnel.rs:244-281", "src/query/src/event_records.rs:269-303", "src/query/src/event_records.rs:427-443", "src/query/src/group_records.rs:256-275", "src/query/src/group_records.rs:373-391", "src/query/src/properties.rs:125-135"]}
{"id": "C118", "title": "A query keeps exactly the rows asked for", "statement": "The rows kept by the filter of a query are exactly those of the project, in the range of time (in units of the column), of one of the events asked for, passing the filters of that event and the filters of the query.", "quantifier": "for all segmentation queries, funnel steps, searches for events and groups, look-ups and lists of values, all metadata with custom events, all rows", "why_tests_cant": "The filter is composed of optional parts in five planners; tests exercise a few combinations and look at the plan, not at which rows it keeps.", "anchors": ["src/query/src/event_segmentation.rs:735-771", "src/query/src/funnel.rs:264-281", "src/query/src/event_records.rs:269-303", "src/query/src/event_records.rs:562-619", "src/query/src/group_records.rs:256-275", "src/query/src/properties.rs:125-135"]}
{"id": "C119", "title": "Rows of a chart are ranked by the average of their values", "statement": "Before the number of rows is limited, every row of a segmentation table gets, behind its group columns, the average (without fraction) of the values it has, and the rows are ordered by descending average; no row and no value is lost or changed.", "quantifier": "For every number of group and interval columns, every table with missing values anywhere, every sort of the averages (unstable ones included).", "why_tests_cant": "Which rows are dropped by the limit depends on the ranking of all rows; tests have tables whose averages are far apart and without missing values.", "anchors": ["src/query/src/physical_plan/aggregate_and_sort_columns.rs:140-200", "src/query/src/event_segmentation.rs:716-730", "src/query/src/physical_plan/limit_groups.rs"]}
{"id": "C120", "title": "A chart of unique users counts the distinct users of accepted requests", "statement": "After any requests of sources and acts of administrators, the value a segmentation query for unique users shows for an event and an interval is the number of distinct users who sent a track request with the name of the event, for the project and in the range and interval, which was answered with success.", "quantifier": "For all sequences of track and identify requests and administrative acts, all event names, ranges and interval units, every distribution of the stored rows over batches and workers.", "why_tests_cant": "The statement composes user resolution, storage of rows, filters, the per-user aggregate and its combination over workers, for unboundedly many users; tests look at each of these with a handful of users.", "anchors": ["src/ingester/src/executor.rs:137-191", "src/query/src/event_segmentation.rs:866-885", "src/query/src/physical_plan/expressions/aggregate/partitioned/count.rs", "src/query/src/physical_plan/segmented_aggregate.rs:67-119", "src/metadata/src/groups.rs"]}
{"id": "C121", "title": "A new project holds exactly the properties, events and groups it needs", "statement": "Creating a project either is refused because its name or token is in use and then changes nothing, or succeeds: the project has a fresh id, is found by its token, other projects are as they were, it holds exactly the listed system and default properties, the five default events and the group of users with number 0, and for every property the table of events (and the table of its group) has a column of the right type.", "quantifier": "For all states reachable by creating projects, track and identify requests and administrative requests, and all creation requests with valid numbers.", "why_tests_cant": "A test creates one or two projects in an empty store; what is claimed holds after any history, including projects whose ids, columns and counters were used by others.", "anchors": ["src/platform/src/projects.rs:86-125", "src/platform/src/projects.rs:275-470", "src/metadata/src/util.rs:38-101", "src/metadata/src/projects.rs", "src/common/src/types.rs:20-75"]}
{"id": "C122", "title": "Well-formed requests are accepted", "statement": "In every state of the system, a track or identify request with a valid token, one user id, distinct property names, values of the types of the existing properties, at most five kinds of groups and an address that can be looked up is answered with success.", "quantifier": "For all states reachable by creating projects, track and identify requests and administrative requests, and all well-formed requests.", "why_tests_cant": "It is a liveness claim about all histories: some earlier request could leave metadata, dictionaries, group records or table columns in a state in which the request fails; tests exercise short histories.", "anchors": ["src/ingester/src/executor.rs:120-263", "src/ingester/src/executor.rs:282-384", "src/ingester/src/destinations/local/track.rs:45-302", "src/ingester/src/destinations/local/identify.rs:30-83", "src/ingester/src/lib.rs:94-138", "src/storage/src/db.rs:700-800"]}
{"id": "C123", "title": "A saved report is given back as it was saved", "statement": "The query, name and description a client saves with a report, by creating or updating it, are what every later reading of the report answers, until the report is changed or deleted.", "quantifier": "For all queries (event segmentations and funnels with any nesting of filters, segments, breakdowns and excluded events), all histories of requests between saving and reading, and any number of rounds of reading and saving.", "why_tests_cant": "The query passes four hand-written families of conversions with dozens of variants each; an example per variant does not show that every combination survives, and drifts only show after several rounds.", "anchors": ["src/platform/src/reports.rs:21-227", "src/platform/src/lib.rs:337-1389", "src/platform/src/event_segmentation.rs:97-543", "src/platform/src/funnel.rs:293-800", "src/metadata/src/reports.rs:55-176"]}
{"id": "C124", "title": "The caches of properties agree with the store", "statement": "Reading a property by identifier or name through the caches answers what the store holds, whatever has been created, updated, deleted or evicted before, and requests about properties change the store and answer as if there were no caches.", "quantifier": "For all histories of metadata requests (all modules), with evictions of any entries at any moment, all projects, kinds of properties, identifiers and names.", "why_tests_cant": "A stale entry shows only for particular interleavings of creations, updates, deletions, failures and evictions; tests run with a few properties and never fill the cache or fail in the middle of a request.", "anchors": ["src/metadata/src/properties.rs:89-217", "src/metadata/src/properties.rs:219-371", "src/metadata/src/properties.rs:419-540"]}
{"id": "C125", "title": "Requests for charts are answered or refused", "statement": "Every request for an event segmentation is answered with a plan or refused with an error; no request panics in the handler, the validation, the conversion or the planner.", "quantifier": "For all requests (any nesting of events, filters, breakdowns, queries and values), in all states reachable by creating projects, track, identify and administrative requests.", "why_tests_cant": "The handler, validation and planner index arrays, unwrap lookups and have unimplemented arms in dozens of places; tests send a few well-formed requests to a fresh store.", "anchors": ["src/platform/src/event_segmentation.rs:45-94", "src/platform/src/event_segmentation.rs:545-640", "src/platform/src/lib.rs:1399-1591", "src/query/src/event_segmentation.rs:90-235", "src/query/src/event_segmentation.rs:612-997", "src/query/src/lib.rs:447-620", "src/query/src/expr.rs:45-300"]}
{"id": "C126", "title": "A chart reads the columns it needs and computes what was asked for", "statement": "The columns a planned event segmentation reads are project, group, moment, event and exactly those of the properties the request names, all of them in the table; every column its plans decode, filter, group or aggregate by is among them; each event has one plan whose groups are the moment and the properties broken down by and whose aggregates are those of the queries in their order.", "quantifier": "For all requests and stores for which a chart is planned.", "why_tests_cant": "A column missing from the projection or an aggregate out of order shows only for particular combinations of filters, breakdowns, queries and custom events.", "anchors": ["src/query/src/event_segmentation.rs:90-235", "src/query/src/event_segmentation.rs:612-955", "src/query/src/lib.rs:547-561"]}
{"id": "C127", "title": "The rows of a chart are those asked for", "statement": "For each event of an event segmentation the row filter of the plan selects, after decoding, exactly the stored rows of the project, the time range and the event whose property values (strings through the dictionaries, numbers by value, times in milliseconds) satisfy the filters of the event and the groups of filters of the request as they were sent.", "quantifier": "For all requests answered with a chart, all states reachable by creating projects, track, identify and administrative requests, and all rows.", "why_tests_cant": "The path from JSON to row filter goes through six conversions and two dictionaries; tests compare a few requests over one project with one filter.", "anchors": ["src/platform/src/event_segmentation.rs:366-545", "src/platform/src/lib.rs:1399-1591", "src/query/src/lib.rs:447-620", "src/query/src/expr.rs:118-391", "src/query/src/event_segmentation.rs:735-771", "src/query/src/physical_plan/dictionary_decode.rs:140-235"]}
{"id": "C128", "title": "Rows of other projects do not stop a chart", "statement": "When the strings of a project's own rows are in its dictionaries, the rows of a chart are decoded without a panic, whatever rows other projects have; columns that are not matched against patterns are left as they are, and without patterns nothing is decoded.", "quantifier": "For all charts and all rows of the table, of any project.", "why_tests_cant": "Needs several projects sharing a column whose dictionaries differ in size; the tests have one project.", "anchors": ["src/query/src/lib.rs:447-502", "src/query/src/event_segmentation.rs:298-300", "src/query/src/event_segmentation.rs:547-587", "src/query/src/physical_plan/dictionary_decode.rs:140-235"]}
{"id": "C129", "title": "A request for a funnel is planned or refused, never panicking", "statement": "Whatever request for a funnel arrives, the handler plans it or answers with an error; it does not panic.", "quantifier": "For all requests and all states reachable by creating projects, track, identify and administrative requests.", "why_tests_cant": "The panics sit in combinations of optional fields (empty groups of filters, session windows, overflow of large windows, group indexes, custom events first in a step) that the tests do not send.", "anchors": ["src/platform/src/funnel.rs:44-76", "src/platform/src/funnel.rs:111-313", "src/platform/src/funnel.rs:490-760", "src/common/src/funnel.rs:62-71", "src/query/src/funnel.rs:78-198", "src/query/src/funnel.rs:244-426"]}
{"id": "C130", "title": "The rows of a funnel, its steps and its exclusions are those asked for", "statement": "The row filter of a funnel selects exactly the project's stored rows of the time asked for that pass the filters of the request as sent; the expression of a step selects exactly the rows of one of its events that pass that event's filters; that of an exclusion the rows of its event that pass its filters, between the steps asked for.", "quantifier": "For all planned funnels, all reachable states and all rows.", "why_tests_cant": "Needs rows of several projects, filters on times in steps and patterns in exclusions; tests check a handful of hand-made batches without the handler.", "anchors": ["src/platform/src/funnel.rs:317-600", "src/platform/src/lib.rs:1399-1591", "src/query/src/funnel.rs:244-330", "src/query/src/funnel.rs:428-463", "src/query/src/expr.rs:118-391"]}
{"id": "C131", "title": "A funnel reads the columns it needs, for the window and groups asked for", "statement": "The columns a planned funnel reads are project, group, moment, event and exactly those of the properties the request names, all in the table, and include every column the plan filters, groups or decodes by; groups and constants are the properties asked for in order; dictionary columns among the groups are decoded exactly once; the window is as long as asked for; steps are named after their first event.", "quantifier": "For all requests and stores for which a funnel is planned.", "why_tests_cant": "Missing columns, wrongly typed groups or wrapped windows show only for particular combinations of custom events, patterns, breakdowns and numbers.", "anchors": ["src/query/src/funnel.rs:78-198", "src/query/src/funnel.rs:244-463", "src/query/src/lib.rs:98-137", "src/query/src/logical_plan/funnel.rs:53-112", "src/common/src/funnel.rs:62-71"]}
{"id": "C132", "title": "Validation accepts exactly the filters and requests that make sense", "statement": "A filter of a chart or funnel passes validation exactly if it names a property there is, its operation makes sense for the type of the property (comparisons for numbers and times, truth for booleans, presence for nullable ones, patterns for strings), comparisons come with at least one value and all values are of the property; a request passes exactly if its group, period, events, steps, filters, breakdowns and exclusions are as they must be.", "quantifier": "For all filters, all requests for charts and funnels, and all stores.", "why_tests_cant": "The decision is a product of 14 operations, 9 types, nullability and value kinds; tests send a handful of valid requests.", "anchors": ["src/platform/src/lib.rs:1399-1620", "src/platform/src/event_segmentation.rs:545-640", "src/platform/src/funnel.rs:111-291"]}
{"id": "C133", "title": "A search for events is answered with the latest events asked for", "statement": "A search for events that is planned is answered with the latest hundred events of the project that are in the period, are of one of the events asked for and pass the filters, and with the properties asked for (all if none are): each in a column labelled with that property, under a name of its own, with the values of the property for each of the events.", "quantifier": "For all stores, tables, requests and ways to order rows by number.", "why_tests_cant": "Columns are matched with properties by position; whether they fit depends on which properties are asked for and on what other projects have created.", "anchors": ["src/query/src/event_records.rs:171-425", "src/platform/src/event_records.rs:68-291"]}
{"id": "C134", "title": "A search for events reads the columns it needs", "statement": "A search for events that is planned reads every column that its filter names, that is shown, or that is decoded.", "quantifier": "For all stores, tables wide enough for the properties of the project, and requests.", "why_tests_cant": "Which columns are read depends on the properties and filters of the request together; tests ask for all properties.", "anchors": ["src/query/src/event_records.rs:172-184", "src/query/src/event_records.rs:534-559"]}
{"id": "C135", "title": "A search for groups is answered with the groups and properties asked for", "statement": "A search for groups that is planned is answered with the first hundred groups of the project that were created in the period asked for and pass the filters, in the order asked for, and with the properties asked for (all properties of the group if none are): each in a column labelled with the property, under a name of its own, holding the values of the property.", "quantifier": "For all stores, tables, rows, meanings of comparisons, and requests.", "why_tests_cant": "The period is lost only together with filters and the order always; tests use one condition at a time and compare sets of rows.", "anchors": ["src/platform/src/group_records.rs:63-199", "src/query/src/group_records.rs:160-358"]}
{"id": "C136", "title": "A look-up by number or name answers with the record", "statement": "Asked for an event by its number, or for a group by its name, the answer is the record of the row: every property of its table that has a column, with its value, and nothing for missing values; a number no event has is refused.", "quantifier": "For all stores, tables, rows, and numbers or names.", "why_tests_cant": "Tests look up records that exist and have all values; what a null slot holds and an empty result are not seen.", "anchors": ["src/query/src/event_records.rs:83-170", "src/query/src/event_records.rs:421-492", "src/query/src/group_records.rs:79-163", "src/query/src/group_records.rs:365-435"]}
{"id": "C137", "title": "The values of a property are those its events have", "statement": "A request for the values of a property that passes validation is answered with the first thousand of the distinct values the property has in the rows of the project, of the event if one is named and passing the filter if there is one, each once and in order.", "quantifier": "For all stores, tables, properties of events and groups, events, filters and orders of values.", "why_tests_cant": "The path goes through validation, a plan with two filters, grouping, decoding and sorting; tests would have to try every operator on every type of property in every store.", "anchors": ["src/platform/src/properties.rs: Properties::values, validate_request", "src/query/src/properties.rs: PropertiesProvider::values, LogicalPlanBuilder::build, projection"]}
{"id": "C138", "title": "Values are shown as they are", "statement": "Every value of an answer is shown in its place: integers, booleans, strings and times as they are, decimals as the nearest number of thousandths, in the same order, and missing values as missing.", "quantifier": "For all columns and single values.", "why_tests_cant": "Rounding has to be right for every mantissa, and the tests' columns have no missing values and no large sums.", "anchors": ["src/platform/src/lib.rs:160-267", "src/platform/src/lib.rs:606-640"]}
{"id": "C139", "title": "The answer to a funnel has the numbers of its rows", "statement": "The answer has for every step its name and one entry for every row of the result, with the numbers of that step in that row: sums over the workers of counts and times and the averages of their ratios to a thousandth; rows about different segments, groups or buckets can be told apart.", "quantifier": "For all numbers of steps, workers, rows, groups and counts, and all ways to print values.", "why_tests_cant": "The columns are found by arithmetic on positions after splitting them by type; tests use few steps, one worker and groups that are strings and present.", "anchors": ["src/query/src/funnel.rs:98-248", "src/query/src/physical_plan/funnel.rs:60-260", "src/query/src/physical_plan/funnel.rs:680-735", "src/query/src/physical_plan/expressions/aggregate/partitioned/funnel/funnel.rs:699-905"]}
{"id": "C140", "title": "The answer to a chart shows the table of aggregates", "statement": "The answer to a chart of one event has the columns event, segment, breakdowns, label, average and one for each interval; its lines are the groups and aggregates of the table, each once, in the order of their averages, and every cell shows the value of the table for that group, aggregate and interval; no line is left out unless a value of a breakdown has more than fifty.", "quantifier": "For all tables of aggregates, breakdowns, queries, intervals, buffer sizes, sorts and ways to print numbers and moments.", "why_tests_cant": "The answer is made by nine operators that each move or rename columns; the tests run few of them together, with a handful of rows and breakdowns by strings.", "anchors": ["src/query/src/event_segmentation.rs:98-160", "src/query/src/event_segmentation.rs:247-456", "src/query/src/event_segmentation.rs:576-708", "src/platform/src/event_segmentation.rs:70-95", "src/common/src/event_segmentation.rs:81-128"]}
{"id": "C141", "title": "A chart shows the numbers of accepted requests", "statement": "The answer to a chart that counts an event per interval shows for every interval of the range exactly the number of track requests of that event that were accepted, in a column named after the interval, with their mean, and it has no columns if there were none.", "quantifier": "For all histories of requests and administration that spare the events of the project, ranges, intervals, workers, batches and orders of rows.", "why_tests_cant": "It is the whole way from a request of a source to a number on the screen: no test takes it.", "anchors": ["src/ingester/src/executor.rs", "src/query/src/event_segmentation.rs:98-160", "src/query/src/physical_plan/segmented_aggregate.rs:640-895", "src/platform/src/event_segmentation.rs:45-95"]}
{"id": "C142", "title": "A chart shows the numbers of users", "statement": "The answer to a chart of the unique users of an event per interval shows for every interval of the range exactly the number of users who sent an accepted track request of that event, in a column named after the interval, with their mean, and it has no columns if there were none.", "quantifier": "For all histories of requests and administration that spare the events of the project, ranges, intervals, workers, batches and orders of rows.", "why_tests_cant": "It is the whole way from the requests of sources through the numbering of users to a number on the screen: no test takes it.", "anchors": ["src/ingester/src/executor.rs", "src/query/src/physical_plan/expressions/aggregate/partitioned/count.rs", "src/query/src/event_segmentation.rs:600-710", "src/platform/src/event_segmentation.rs:45-95"]}
{"id": "C143", "title": "A chart of several events shows each of them", "statement": "The answer to a chart of several events shows, in the order of the events, for every event exactly the lines its own chart has (every group and aggregate once, right values and mean, the highest mean first), labelled with the event, under one set of columns: event, segment, the breakdowns of all events and of the request once each, label, average and the moments; a breakdown an event does not have is shown as missing.", "quantifier": "For all charts whose columns can be told apart, numbers of events, tables of aggregates, hashes without collision and sorts.", "why_tests_cant": "The columns come from the order of the table, the breakdowns of the events and the merged schema; tests have one set of breakdowns for one or two events.", "anchors": ["src/query/src/event_segmentation.rs:320-451", "src/query/src/physical_plan/merge.rs:47-215", "src/query/src/physical_plan/reorder_columns.rs", "src/query/src/physical_plan/rename_columns.rs"]}
{"id": "C144", "title": "Requests of sources mean what their bodies say", "statement": "A body posted to the track or identify endpoint has the effect of the request it describes: every field as written, with the address of the connection and the time of the server where it gives none, and each property with the value written for it; a body that describes no request is answered with 400 and changes nothing.", "quantifier": "all bodies, all readings of dates, numbers and addresses by the libraries, all orders of iterating hash maps, all states", "why_tests_cant": "Which strings of clients look like something else depends on data nobody writes into tests; order and duplication of members and missing optional fields multiply", "anchors": ["src/ingester/src/sources/http/mod.rs:26-238", "src/ingester/src/error.rs:31-50", "src/common/src/http.rs:65-91"]}
{"id": "C145", "title": "The schema API shows what is kept and keeps what it is given", "statement": "A call of the schema API is refused without the permission and changes nothing then; what is created or updated is shown by number, by name and in the list as it was asked for, until it is updated or deleted, whatever else is requested meanwhile; an update changes what it mentions and nothing else; lists have exactly what is shown by number, each once; what is deleted is shown once more and never again.", "quantifier": "all callers, requests, histories of all metadata requests before and between, projects", "why_tests_cant": "Each test makes a record and reads it back at once from the same process; conversions of rarely used fields, numbers of other scales and the interplay with other requests are not tried", "anchors": ["src/platform/src/events.rs:30-280", "src/platform/src/custom_events.rs:30-250", "src/platform/src/dashboards.rs:30-230", "src/platform/src/groups.rs:20-70", "src/platform/src/properties.rs:60-340", "src/platform/src/http/properties.rs:29-162"]}
{"id": "C146", "title": "No answer of the API depends on stored secrets", "statement": "Two stores that differ in password hashes of accounts, passwords of backups, and the admin password, the encryption password and the provider keys of the settings only, give the same answers to every conversation with the API, whatever other requests happen in between, as long as each password presented for comparison is right for both or wrong for both; in particular nothing is learnt about them without presenting a password.", "quantifier": "all pairs of such stores, all sequences of calls of the authentication, schema, report, administration and settings API and of metadata requests, all callers and tokens", "why_tests_cant": "A test checks that one field is missing from one answer; that no sequence of calls lets a secret through is a statement about pairs of runs", "anchors": ["src/platform/src/accounts.rs:32-147", "src/platform/src/backups.rs:29-145", "src/platform/src/settings.rs:19-128", "src/platform/src/auth/provider.rs:60-330", "src/metadata/src/backups.rs:100-240"]}
{"id": "C147", "title": "What the administration calls show and keep", "statement": "A call of the accounts, organizations, projects, backups or bookmarks API without its permission is refused and changes nothing, and one that reads changes nothing. What was created is afterwards shown as it was asked for, what was updated is shown with every mentioned field as asked for and every other as before, and other records are shown as before, whatever else has happened since. Lists have exactly what is shown by number and the caller may see, each once; what was deleted is no longer shown. A backup is made as the settings ask for it, exactly if backups are on and none is waiting, and into a file of its own.", "quantifier": "all stores reached by metadata requests, all callers, requests and later requests that leave the record alone", "why_tests_cant": "Each test checks one request on one store; that no sequence of other requests disturbs what was acknowledged, and that no field is dropped for any request, quantifies over all of them", "anchors": ["src/platform/src/accounts.rs:28-180", "src/platform/src/organizations.rs:22-125", "src/platform/src/projects.rs:128-290", "src/platform/src/backups.rs:26-150", "src/platform/src/bookmarks.rs:24-75", "src/metadata/src/backups.rs:69-91"]}
{"id": "C148", "title": "The scheduler runs every backup asked for and makes one in each minute of the schedule", "statement": "The loop of the server runs the backup that waits and otherwise makes, in each minute of the schedule of the settings, exactly one backup as the settings say; each completed backup keeps its own archive at the place the settings name; a start of the server leaves no backup pending.", "quantifier": "all stores reached by any history of requests, all settings, all times, all outcomes of the archiving and the delivery, all sequences of turns of the loop", "why_tests_cant": "The schedule depends on the clock over months and the faults need ten backups, a particular provider, or a crash in the middle of an upload.", "anchors": ["src/cmd/src/backup.rs:39-181", "src/cmd/src/backup.rs:183-241", "src/cmd/src/backup.rs:278-320", "src/metadata/src/backups.rs:68-91", "src/metadata/src/lib.rs:108-110"]}
{"id": "C149", "title": "A new server can be logged in to, and a server that has started can be started again", "statement": "However often starts of a new server are interrupted, the first that is not leaves one administrator, the owner of one organization, who logs in with the password kept in the settings and no other; a later start finds and keeps all there is; a server that has started once can be started again.", "quantifier": "all sequences of starts interrupted after any transaction, all keys, passwords and clocks, all stores reached by any history of requests", "why_tests_cant": "A crash between two transactions of the very first start, or the removal of one particular account, shows only at some later start.", "anchors": ["src/cmd/src/command/server.rs:35-102", "src/cmd/src/lib.rs:432-464", "src/cmd/src/backup.rs:47-65", "src/metadata/src/accounts.rs:54-90", "src/metadata/src/organizations.rs:40-90"]}
{"id": "C150", "title": "Requests reach the handlers they are addressed to", "statement": "Every request whose method and path are those of a handler of the API reaches this handler with the numbers and texts of the path in their places, and no other request does; no request is addressed to two handlers; without a valid token only signing up, logging in and the two calls of the ingester run; what is not under /api/v1 is served from the files of the user interface; and the table of routes has no conflicts that would stop the server from starting.", "quantifier": "all methods, paths, numbers, texts and ways to decode them, with and without a token", "why_tests_cant": "There are 209 routes and infinitely many paths; a test calls each route once with its own path, which shows neither that a word never shadows a parameter nor that a route is reachable by no other path.", "anchors": ["src/platform/src/http/mod.rs:45-73", "src/platform/src/http/custom_events.rs:65-73", "src/platform/src/http/properties.rs:142-177", "src/platform/src/http/events.rs:38-47", "src/platform/src/http/events.rs:100-119", "src/platform/src/http/auth.rs:208-223", "src/ingester/src/sources/http/mod.rs:238-260", "src/platform/src/context.rs:154-195"]}
{"id": "C151", "title": "A request does what its reply says", "statement": "For every request to the API: GET and HEAD change nothing; a reply of 400 or more means that nothing was changed, and has nothing stored in it; without a valid caller every handler that is not open answers 401 and only signing up and the ingester can change anything; an account, organization, project, backup, event, property or dashboard that is asked for is answered with 403 if the caller may not see it, with 404 if it is not there, and otherwise with 200 and the thing; what is made is told and can be got back by its number; and what any conversation leaves in the store is what requests to the metadata make of it, so that its invariants hold.", "quantifier": "all requests (methods, paths, tokens, bodies), all times, all reachable stores, all conversations of any length", "why_tests_cant": "A test sends a few requests in a fixed order to an empty server; that no refusal and no reading request ever leaves anything behind, whatever was sent before, concerns all requests in all reachable states.", "anchors": ["src/platform/src/http/mod.rs:45-73", "src/platform/src/error.rs:92-159", "src/platform/src/context.rs:154-195", "src/common/src/http.rs:137-184", "src/platform/src/http/backups.rs:16-21", "src/platform/src/http/auth.rs:50-206"]}
{"id": "C152", "title": "Strangers neither see nor change a project", "statement": "For every request to the API by somebody who is neither an administrator of the installation, nor owner or administrator of the organization of their token, nor has a role in the project (or by nobody known): the reply is the same whatever is kept in the project (its events, properties, custom events, groups, dashboards, reports, bookmarks, dictionaries and numbers), and what is kept in the project is not changed; over any conversation. Whatever changes a project was asked for by somebody who may do just that in this project, and somebody who may only read changes nothing but bookmarks.", "quantifier": "all projects, all pairs of stores that agree outside the project, all requests and conversations of any length by strangers", "why_tests_cant": "That a reply carries no information about another tenant's project compares runs on all pairs of stores; a test runs on one store and sees one reply.", "anchors": ["src/metadata/src/lib.rs:94-96", "src/platform/src/context.rs:96-", "src/platform/src/events.rs", "src/platform/src/properties.rs", "src/platform/src/reports.rs", "src/platform/src/bookmarks.rs:28-49", "src/platform/src/projects.rs:129-211", "src/platform/src/http/mod.rs:45-73"]}
{"id": "C153", "title": "What is sent for one project is apart from the others", "statement": "A track or identify request with the token of one project is answered the same, changes the tables the same and adds the same rows whatever is kept in any other project; it leaves what is kept in other projects as it is, and every row it adds carries the number of its own project; making a project leaves the others as they are; and no sequence of requests for one project changes whether and how requests for another are answered.", "quantifier": "all projects, all pairs of worlds that agree outside a project, all requests, all sequences of requests of any length", "why_tests_cant": "Independence of tenants compares runs on all pairs of states; a test sends events of one project to one server and cannot show that no state of another project would have changed the outcome.", "anchors": ["src/ingester/src/executor.rs:105-384", "src/ingester/src/sources/http/mod.rs:140-238", "src/ingester/src/destinations/local/track.rs", "src/ingester/src/destinations/local/identify.rs:30-83", "src/platform/src/projects.rs:92-124"]}
{"id": "C154", "title": "The values of stored queries are read as they were written", "statement": "Every value in a stored query (of a report or a bookmark) that can be written is read back as the same value; all kinds of values that have a stored form can be written and read; and two different values never have one stored form.", "quantifier": "all values of all kinds, with all contents", "why_tests_cant": "There are some thirty kinds of values with unboundedly many contents and two hand-written conversions; tests store numbers, strings and booleans only, so a slip in another arm is never run.", "anchors": ["src/common/src/scalar.rs:12-46", "src/common/src/scalar.rs:48-83", "src/common/src/scalar.rs:85-120", "src/common/src/query.rs:305-310", "src/platform/src/lib.rs:309-319"]}
{"id": "C155", "title": "Segments by an aggregate of a property hold the users whose numbers compare", "statement": "The users reported for a segment by the sum, minimum, maximum, average or number of a property are exactly those who have rows in the period that pass the filter and whose aggregate of the property over these rows compares as asked with the number given; each is reported once, however the rows are cut into batches.", "quantifier": "all aggregates, comparisons, numbers, periods and filters; all rows sorted by user; all ways to cut them into batches", "why_tests_cant": "One accumulator is reused for all users and the result of a user is written when the next one begins, so errors are at the first user, the last one and at the edges of batches; which of these a test meets depends on its few rows.", "anchors": ["src/query/src/physical_plan/expressions/segmentation/aggregate.rs:47-127", "src/query/src/physical_plan/expressions/segmentation/aggregate.rs:200-282", "src/query/src/physical_plan/planner/segment.rs:34-43", "src/query/src/physical_plan/planner/segment.rs:80-210", "src/query/src/logical_plan/segment.rs:31-63"]}
{"id": "C156", "title": "Starting the storage makes the tables once, as configured, and keeps them", "statement": "A first start makes exactly the table of events and the five of groups with the options the configuration asks for; every start on tables that can be recovered goes on, leaves them as they are and makes the missing ones; over any sequence of starts, complete or ended anywhere, and work between them, a table keeps its options and loses no data; and a start that was ended is made good by the next.", "quantifier": "all configurations, all directories, all points at which a start may end, all sequences of starts and work", "why_tests_cant": "Where a process ends cannot be chosen by a test, and the directories that ended starts leave are never made by hand; tests start on an empty directory with one configuration.", "anchors": ["src/cmd/src/lib.rs:226-284", "src/cmd/src/config.rs:99-130", "src/storage/src/db.rs:298-352", "src/storage/src/db.rs:401-414", "src/storage/src/db.rs:1275-1325", "src/cmd/src/command/server.rs:42-50"]}
{"id": "C157", "title": "The compact format holds the same answer", "statement": "In the compact format a search is answered with the values of the columns of the other format, in their order, and fails where the other fails; a chart of one event is answered with a row for every group and moment of the table of aggregates: its segment, its date, its breakdowns, the mean of its aggregates and the aggregates, from the largest mean on. No chart that the other format answers panics.", "quantifier": "all tables of aggregates, all types of aggregates, all breakdowns, all columns of searches", "why_tests_cant": "Tests use the default format; the plan of the other format differs in many places that depend on the types of aggregates and the order of the columns.", "anchors": ["src/query/src/event_segmentation.rs:309-351", "src/query/src/event_segmentation.rs:614-732", "src/query/src/physical_plan/aggregate_and_sort_columns.rs:143-198", "src/query/src/physical_plan/limit_groups.rs:138-205", "src/platform/src/event_segmentation.rs:66-91", "src/platform/src/lib.rs:611-640"]}
{"id": "C158", "title": "A column has one type in whatever notation", "statement": "The type of a column of the store, written in arrow2 and converted to arrow, is the type written in arrow directly, and both are read back as the type of the column; a schema of arrow2 is converted to a schema of arrow with the same names, types, nullability and order, so that different schemas stay different; the conversion panics exactly for types with a union, a map, a dictionary or an extension somewhere in them.", "quantifier": "all types of columns, all types of arrow2 nested to any depth, all schemas", "why_tests_cant": "Tests convert arrays of integers and lists of integers; types nest without bound.", "anchors": ["src/storage/src/arrow_conversion.rs:34-109", "src/common/src/types.rs:126-287", "src/storage/src/db.rs:1222-1225"]}
{"id": "C159", "title": "The demo store has the users that are asked for", "statement": "For any beginning and end and any number of users a day, whatever is drawn at random, each day that is begun has that many users, each of them comes at a moment of their day, within the time asked for, and then the generation ends.", "quantifier": "all beginnings, ends, numbers of users a day and all random draws", "why_tests_cant": "The draws are random and the code has no test; the last user is one of thousands.", "anchors": ["src/events-gen/src/generator.rs:44-93", "src/cmd/src/command/store.rs:184-195"]}
{"id": "C160", "title": "A query depends on nothing of other projects", "statement": "What a chart, a funnel, a search for events or groups, a list of values or a single record of a project is planned as and answers depends only on the metadata and the rows of this project: whatever other projects have in the store or in the tables, the answer is the same.", "quantifier": "all stores and tables that agree in the project, all requests, all projects", "why_tests_cant": "Tests use one project; a leak needs two stores that differ elsewhere, and every request.", "anchors": ["src/query/src/expr.rs:118-275", "src/query/src/event_records.rs:222-425", "src/query/src/event_segmentation.rs:162-235", "src/query/src/funnel.rs:244-426", "src/query/src/group_records.rs:216-358", "src/query/src/properties.rs:59-195", "src/query/src/physical_plan/dictionary_decode.rs:167-214"]}
{"id": "C161", "title": "The events of a demo user tell a possible story", "statement": "Whatever is drawn at random, writing the events of a user of the demo store never panics; each session begins with the index page; nobody registers or logs in twice, and events name the user exactly from the registration on; an order is completed with a cart that is not empty and right after its five steps of checkout; what the user has spent is at each event the sum of the revenues so far; events come in the order of their times and none after the time asked for; a product is said to be added to the cart once for each time it is put there.", "quantifier": "all stores of products, all times, all numbers of sessions and all random draws", "why_tests_cant": "The draws are random and the code has no test; panics and wrong events need particular sequences of actions over several sessions.", "anchors": ["src/events-gen/src/store/scenario.rs:124-482", "src/events-gen/src/store/scenario.rs:491-761", "src/events-gen/src/store/scenario.rs:767-793", "src/events-gen/src/store/transitions.rs:5-104", "src/events-gen/src/store/actions.rs:34-55", "src/events-gen/src/store/intention.rs:16-53", "src/events-gen/src/store/coefficients.rs:25-202"]}
{"id": "C162", "title": "The demo store offers what its file has", "statement": "The store comes up if and only if its file has five products and four categories. Its products are those of the file, each once, with the price of the file and, where there is one, a discount of a tenth. Promotions, deals and wanted products can always be drawn and are products of the store, and any product can be wanted. All events of users are about products of the store, and no order has a negative revenue.", "quantifier": "all files, all shuffles, all draws, all users and sessions", "why_tests_cant": "The file is fixed and draws are random; a lack of discounts shows only in some runs.", "anchors": ["src/events-gen/src/store/products.rs:42-49", "src/events-gen/src/store/products.rs:64-147", "src/events-gen/src/probability.rs:7-8", "src/events-gen/src/store/scenario.rs:242-438"]}
{"id": "C163", "title": "The people of the demo store come from its files", "statement": "Once the files of places, devices and companies are read, drawing a person never panics; the place, the device and the company of a person are each those of one row of their file, rows of weight zero are never drawn, and of the numbers that can be drawn each row has exactly as many as its weight; every row with a positive weight can be drawn; people are 18 to 49 years old and belong to one of ten projects. Files with a row that cannot be read, without rows, with a negative weight or without any weight are refused.", "quantifier": "for all files, weights, shuffles and numbers drawn", "why_tests_cant": "The draws are random, so a test sees a few of them and cannot tell a weight that is off by one or a row that is never drawn; files are fixed in the tests.", "anchors": ["src/events-gen/src/store/profiles.rs:75-148", "src/events-gen/src/store/companies.rs:30-51"]}
{"id": "C164", "title": "The filter of a funnel decides which attempts count", "statement": "A funnel with a filter counts the attempts the filter accepts: with drop-off on any step those that did not reach the last step, with drop-off on a step those that ended at it, with a time to convert those that reached the last step within the bounds; the bounds belong to the range.", "quantifier": "every funnel, filter, set of users, rows and batching", "why_tests_cant": "Tests have one filter and few rows; that a filter has no effect at all shows only against the same funnel without it, for all rows.", "anchors": ["src/query/src/physical_plan/expressions/aggregate/partitioned/funnel/funnel.rs:180-236", "src/query/src/physical_plan/expressions/aggregate/partitioned/funnel/funnel.rs:637-640", "src/query/src/physical_plan/expressions/aggregate/partitioned/funnel/mod.rs:71-77"]}
{"id": "C165", "title": "A session that ends leaves one row that says so", "statement": "When the cleaner closes sessions it writes exactly one row for each of them into the table of events, of the user and of the event Session End, with the time at which the session was closed and its length, and none for sessions that stay open.", "quantifier": "all sessions, durations, clocks and crashes", "why_tests_cant": "The cleaner runs in a thread of its own after hours; no test runs it, and a crash between the rows and the deletion cannot be placed by one.", "anchors": ["src/cmd/src/lib.rs:357-432", "src/metadata/src/sessions.rs:75-135"]}
