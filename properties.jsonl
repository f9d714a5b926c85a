{"id": "C01", "title": "Event order is the lexicographic order on (id, key)", "statement": "Events are ordered by unsigned 64-bit id first and by key bytes (memcmp, shorter key first on a common prefix) second; every place of the database that orders two events agrees with that order, so the relation is a total order in which two events are equal exactly when they have the same id and key.", "quantifier": "For every pair (and triple) of events: every two 64-bit ids and every two keys of 0..255 bytes, for every memcmp that meets the C standard.", "why_tests_cant": "There are 2^128 id pairs; the sign errors of a wrapped or truncated difference only show at distances of 2^31, 2^32 or 2^63, which example based tests with small ids never reach.", "anchors": [{"file": "monotone/engine/io/comparator.h", "symbols": ["compare"]}, {"file": "monotone/runtime/runtime/misc.h", "symbols": ["compare_u64"]}, {"file": "monotone/engine/io/memtable.c", "symbols": ["memtable_compare", "memtable_search"]}, {"file": "monotone/engine/io/region_iterator.h", "symbols": ["region_iterator_compare", "region_iterator_search"]}]}
{"id": "C02", "title": "Ordered index stays sorted and balanced", "statement": "The ordered in-memory index used for partitions and for memtable pages keeps exactly its entries, in order, after any sequence of insertions and removals, and its depth stays at most 2*log2(n+1), so lookups stay logarithmic and iteration in either direction visits every entry once in order.", "quantifier": "For every reachable tree: every sequence of inserts (of new keys at the position returned by the lookup) and removals of any present entry.", "why_tests_cant": "Red-black rebalancing has many rotation cases that depend on the whole history; tests can only sample insertion and deletion orders.", "anchors": [{"file": "monotone/runtime/lib/rbtree.c", "symbols": ["rbtree_set", "set_fixup", "rbtree_remove", "rbtree_min", "rbtree_max", "rbtree_next", "rbtree_prev"]}, {"file": "monotone/runtime/lib/rbtree.h", "symbols": ["rbtree_get"]}]}
{"id": "C03", "title": "A partition lookup returns the partition that covers the id", "statement": "Looking up an id returns the unique partition whose [min,max] range contains it and nothing when no partition contains it; the greater-or-equal lookup used by cursors returns the partition that contains the id or else the one with the smallest min above it.", "quantifier": "For every set of non overlapping partitions, whatever the order in which they were created or dropped, and every 64-bit id.", "why_tests_cant": "The lookup runs over a balanced tree whose shape depends on history and compares 64-bit numbers by difference; only special distances between partition ranges reveal errors.", "anchors": [{"file": "monotone/engine/io/mapping.h", "symbols": ["mapping_find", "mapping_add", "mapping_remove", "mapping_seek", "mapping_gte", "mapping_match", "mapping_next"]}, {"file": "monotone/engine/engine/engine.c", "symbols": ["engine_lock"]}]}
{"id": "C04", "title": "Partitions never overlap", "statement": "At every moment the [min,max] ranges of any two partitions are disjoint, min <= max holds for each, and the partition of a given id never changes while it exists; automatic creation, CREATE PARTITION, DROP and MOVE all keep this.", "quantifier": "For every interleaving of writes to arbitrary ids, explicit partition creation with arbitrary min/max, and drops, with every interval setting.", "why_tests_cant": "Gap filling depends on every possible arrangement of existing ranges around the requested one, including at the ends of the 64-bit range.", "anchors": [{"file": "monotone/engine/engine/op.c", "symbols": ["engine_fill_nolock", "engine_fill", "engine_create", "engine_drop_reference"]}, {"file": "monotone/engine/engine/engine.c", "symbols": ["engine_lock"]}, {"file": "ARCHITECTURE.md", "symbols": ["Partitions never overlap"]}]}
{"id": "C05", "title": "Creating a range covers exactly the missing ids", "statement": "CREATE PARTITION min max (and the automatic creation on write) makes every id of [min,max] covered, adds ranges only inside [min,max], leaves all existing partitions untouched, and fails without any change when min > max.", "quantifier": "For every existing partition layout and every min, max in 0..2^64-1.", "why_tests_cant": "The number of relative positions of a range against a list of existing ranges is unbounded and the arithmetic wraps at the ends.", "anchors": [{"file": "monotone/engine/engine/op.c", "symbols": ["engine_fill_nolock", "engine_create"]}, {"file": "monotone/main/command/parse_partition.c", "symbols": ["parse_partition_create"]}]}
{"id": "C06", "title": "A write is accepted for every id", "statement": "A write whose id is any 64-bit number (UINT64_MAX meaning 'assign serial' when serial mode is on) finds or creates the partition [id - id mod interval, +interval) clipped by existing partitions and succeeds; it never fails, aborts or creates an empty or inverted range.", "quantifier": "For every id in 0..2^64-1, every non-zero interval and every partition layout.", "why_tests_cant": "The wrap of min+interval-1 near 2^64 and intervals near 2^64 are corner cases among 2^128 combinations.", "anchors": [{"file": "monotone/engine/engine/engine.c", "symbols": ["engine_lock"]}, {"file": "monotone/runtime/config/global.h", "symbols": ["config_interval_of", "config_interval"]}, {"file": "monotone/engine/engine/write.c", "symbols": ["engine_write"]}]}
{"id": "C07", "title": "In-memory table behaves as a sorted map", "statement": "Within one partition the in-memory table is a map from (id,key) to the most recently written event: writing a new key adds it, writing an existing key replaces it and reports the previous version, and in-order traversal yields each key exactly once in ascending order.", "quantifier": "For every sequence of writes of any length (across page splits) in any order of keys.", "why_tests_cant": "The behaviour depends on page splits that need more than 512 events per partition and on the position of each key relative to page boundaries.", "anchors": [{"file": "monotone/engine/io/memtable.c", "symbols": ["memtable_set", "memtable_insert", "memtable_search", "memtable_search_page"]}, {"file": "monotone/engine/io/memtable_iterator.h", "symbols": ["memtable_iterator_open", "memtable_iterator_next"]}]}
{"id": "C08", "title": "In-memory seek positions at the first key >= the request", "statement": "Opening an in-memory iterator at (id,key) positions on the smallest stored key that is >= the request (or at the end when there is none) and reports whether it matched exactly; iteration then continues through all larger keys.", "quantifier": "For every table content and every requested key, present or absent.", "why_tests_cant": "Seeks that fall between two pages or between two stored keys depend on the page layout produced by the whole history.", "anchors": [{"file": "monotone/engine/io/memtable.c", "symbols": ["memtable_seek", "memtable_search_page", "memtable_search"]}, {"file": "monotone/engine/io/memtable_iterator.h", "symbols": ["memtable_iterator_open", "memtable_iterator_next"]}]}
{"id": "C09", "title": "Batch writes are atomic in memory", "statement": "If a batch write fails at any point (oversized key, allocation failure, log write error) the visible contents of the database are exactly what they were before the call; if it succeeds, all its events are applied in order, so a later event of the batch wins over an earlier one with the same key.", "quantifier": "For every database state, every batch (including repeated keys and events of several partitions) and every failure position.", "why_tests_cant": "Rollback correctness must hold for every combination of replaced/new keys and failure index; error injection in tests covers one fixed position.", "anchors": [{"file": "monotone/engine/engine/write.c", "symbols": ["engine_write", "engine_rollback", "engine_commit"]}, {"file": "monotone/engine/io/memtable.c", "symbols": ["memtable_set", "memtable_unset"]}, {"file": "monotone/engine/wal/log.h", "symbols": ["log_add", "log_add_event"]}]}
{"id": "C10", "title": "Last write wins and deletes hide", "statement": "Reading a key returns the value of the last successful write of that key; after a delete the key is not returned by any cursor until it is written again, regardless of whether the earlier versions sit in memory, in the second in-memory table, or in the partition file.", "quantifier": "For every history of inserts, updates and deletes interleaved with refreshes, for every key.", "why_tests_cant": "The number of ways versions can be spread over the two memory tables and the file is unbounded.", "anchors": [{"file": "monotone/engine/io/merge_iterator.h", "symbols": ["merge_iterator_next"]}, {"file": "monotone/engine/io/part_cursor.h", "symbols": ["part_cursor_open"]}, {"file": "monotone/main/api/monotone.c", "symbols": ["monotone_cursor", "monotone_read", "monotone_next"]}, {"file": "monotone/engine/engine/engine_cursor.h", "symbols": ["engine_cursor_skip_deletes"]}]}
{"id": "C11", "title": "A full scan returns exactly the live events in ascending order", "statement": "Opening a cursor without a key and calling next until the end returns every live (id,key) exactly once in strictly ascending order, across all partitions, and terminates.", "quantifier": "For every set of live events spread over any number of partitions, memory tables and files.", "why_tests_cant": "Completeness over unbounded data, partition layouts and id distances (including ids 2^31 apart and at the end of the 64-bit range).", "anchors": [{"file": "monotone/engine/engine/engine_cursor.h", "symbols": ["engine_cursor_open", "engine_cursor_next"]}, {"file": "monotone/engine/io/mapping.h", "symbols": ["mapping_gte"]}, {"file": "monotone/engine/io/part_cursor.h", "symbols": ["part_cursor_open", "part_cursor_next"]}, {"file": "monotone/main/api/monotone.c", "symbols": ["monotone_next"]}]}
{"id": "C12", "title": "A keyed cursor starts at the first live event >= the key", "statement": "Opening a cursor at (id,key) and scanning returns exactly the live events >= (id,key) in ascending order.", "quantifier": "For every database content and every start key, whether or not it is stored and wherever it falls (inside a partition, between partitions, between file regions).", "why_tests_cant": "Positions relative to region, page and partition boundaries multiply without bound.", "anchors": [{"file": "monotone/engine/engine/engine_cursor.h", "symbols": ["engine_cursor_open"]}, {"file": "monotone/engine/io/part_iterator.h", "symbols": ["part_iterator_open"]}, {"file": "monotone/engine/io/index_iterator.h", "symbols": ["index_iterator_open"]}, {"file": "monotone/engine/io/region_iterator.h", "symbols": ["region_iterator_open"]}]}
{"id": "C13", "title": "Merging sources keeps order and priority", "statement": "Merging any number of sorted sources yields the sorted union of their keys; when several sources hold the same key only the event of the earliest added source is returned.", "quantifier": "For every number of sources and all sorted contents of each.", "why_tests_cant": "Every interleaving of duplicates across sources has to be handled; tests use two or three short sources.", "anchors": [{"file": "monotone/engine/io/merge_iterator.h", "symbols": ["merge_iterator_add", "merge_iterator_open", "merge_iterator_next"]}]}
{"id": "C14", "title": "Refresh does not change what readers see", "statement": "Merging a partition's memory table into its file (refresh, move, checkpoint, background worker) leaves the visible contents of the partition unchanged, and the new file contains no deleted events and each key once.", "quantifier": "For every memory table (with inserts, updates, deletes) and every previous file, and for writes that arrive between the start and the end of the refresh.", "why_tests_cant": "Depends on all overlaps between table and file and on the timing of concurrent writes.", "anchors": [{"file": "monotone/engine/engine/refresh.c", "symbols": ["refresh", "refresh_begin", "refresh_merge", "refresh_apply", "refresh_end"]}, {"file": "monotone/engine/io/merger.c", "symbols": ["merger_execute"]}, {"file": "monotone/engine/io/part.h", "symbols": ["part_memtable_rotate"]}]}
{"id": "C15", "title": "Partition file round trip", "statement": "Reading back a partition file yields exactly the events that were written to it, in the same order, with the same id, key, value and flags, for every region size setting.", "quantifier": "For every sorted sequence of events of any length and size that fits the 32-bit format limits and every region size limit.", "why_tests_cant": "Byte level layout with variable sized events and region boundaries; infinitely many shapes.", "anchors": [{"file": "monotone/engine/io/writer.c", "symbols": ["writer_add", "writer_stop_region", "writer_stop"]}, {"file": "monotone/engine/io/region_writer.h", "symbols": ["region_writer_add", "region_writer_stop"]}, {"file": "monotone/engine/io/reader.h", "symbols": ["reader_execute"]}, {"file": "monotone/engine/io/region.h", "symbols": ["region_get"]}, {"file": "monotone/engine/io/part_iterator.h", "symbols": ["part_iterator_next"]}]}
{"id": "C16", "title": "File regions partition the key space by id", "statement": "All events of one id are in the same region of a partition file; regions are in ascending order with disjoint [min,max] id ranges that the file index records correctly, and a region is closed as soon as its size reaches the limit and the id changes.", "quantifier": "For every sorted event sequence and region size limit.", "why_tests_cant": "The rule interacts with event sizes and repeated ids in unboundedly many ways.", "anchors": [{"file": "monotone/engine/io/writer.c", "symbols": ["writer_add"]}, {"file": "monotone/engine/io/index_writer.h", "symbols": ["index_writer_add"]}, {"file": "monotone/engine/io/index.h", "symbols": ["index_region_min", "index_region_max"]}]}
{"id": "C17", "title": "File index lookup finds the right region", "statement": "Seeking a file for an id selects the first region whose max id is >= the id, or none if all are smaller; hence the first stored event >= the request is in that region or is the first event of a later one.", "quantifier": "For every region index and id.", "why_tests_cant": "Binary search boundary errors depend on count and distances.", "anchors": [{"file": "monotone/engine/io/index_iterator.h", "symbols": ["index_iterator_search", "index_iterator_open"]}, {"file": "monotone/engine/io/part_iterator.h", "symbols": ["part_iterator_open"]}]}
{"id": "C18", "title": "File index footer survives a round trip and damage is detected", "statement": "Opening a partition file accepts the footer that was written, and rejects (with an error, never by returning wrong data) a file whose footer differs from the written one by any error burst of up to 32 bits, has a wrong length, or is truncated.", "quantifier": "For every footer contents and every 1..32 bit error burst inside the checksummed bytes.", "why_tests_cant": "2^32 error patterns times all positions times all contents.", "anchors": [{"file": "monotone/engine/io/index_op.c", "symbols": ["index_open", "index_read"]}, {"file": "monotone/engine/io/index_writer.h", "symbols": ["index_writer_stop"]}, {"file": "monotone/runtime/lib/crc.c", "symbols": ["crc32"]}]}
{"id": "C19", "title": "Region damage is detected on read when crc is enabled", "statement": "With crc enabled for a storage, reading a region whose bytes on disk were changed after being written fails with an error instead of returning altered events.", "quantifier": "For every region contents and every single burst error up to 32 bits.", "why_tests_cant": "The space of corruptions is unbounded.", "anchors": [{"file": "monotone/engine/io/reader.h", "symbols": ["reader_execute"]}, {"file": "monotone/engine/io/writer.c", "symbols": ["writer_stop_region"]}, {"file": "monotone/engine/io/index_writer.h", "symbols": ["index_writer_add"]}]}
{"id": "C20", "title": "Log record round trip", "statement": "A committed batch read back from the log file yields the same lsn, the same number of events and the same events in order; with log checksums enabled a correctly written record is always accepted.", "quantifier": "For every batch of events of every key/value size, with log checksums on or off.", "why_tests_cant": "Depends on the sizes of all keys and values in the batch and on the byte layout of neighbouring allocations.", "anchors": [{"file": "monotone/engine/wal/log.h", "symbols": ["log_add_event"]}, {"file": "monotone/engine/wal/log_write.h", "symbols": ["log_write_first", "log_write_next", "log_write_seal"]}, {"file": "monotone/engine/wal/wal_file.h", "symbols": ["wal_file_pread"]}, {"file": "monotone/engine/io/event.h", "symbols": ["event_size"]}]}
{"id": "C21", "title": "Log sequence numbers increase strictly", "statement": "Every acknowledged batch gets a log sequence number larger than all numbers used before, also after any number of restarts, and the log files list them in increasing order.", "quantifier": "For every sequence of writes, drops, log rotations and restarts.", "why_tests_cant": "Requires reasoning about all restart points and the state restored from files and log.", "anchors": [{"file": "monotone/engine/wal/wal.c", "symbols": ["wal_write", "wal_write_op", "wal_rotate"]}, {"file": "monotone/engine/engine/write.c", "symbols": ["engine_write_replay"]}, {"file": "monotone/engine/engine/engine_recover.c", "symbols": ["engine_recover"]}, {"file": "monotone/runtime/config/global.h", "symbols": ["config_lsn_follow", "config_lsn_next"]}]}
{"id": "C22", "title": "Reading the log returns every record from a position, in order", "statement": "Reading the log from a given lsn returns exactly the records with lsn >= the given one, in order, across all log files, and stops cleanly at the end of the last complete record.", "quantifier": "For every division of the record sequence into files and every start lsn.", "why_tests_cant": "Any number of files, empty files included, and any cut position at the tail.", "anchors": [{"file": "monotone/engine/wal/wal_cursor.c", "symbols": ["wal_cursor_open", "wal_cursor_next"]}, {"file": "monotone/engine/wal/wal_id.h", "symbols": ["wal_id_find", "wal_id_next", "wal_id_min"]}, {"file": "monotone/engine/wal/wal_file.h", "symbols": ["wal_file_eof", "wal_file_pread"]}]}
{"id": "C23", "title": "A torn log tail loses only the torn record, now and later", "statement": "If the process dies in the middle of appending a record, reopening the database recovers all earlier records, and records acknowledged after the reopening survive further restarts.", "quantifier": "For every log, every byte position at which the last record was cut, and every later sequence of writes and restarts.", "why_tests_cant": "Crash positions are per byte and the effect appears only after a second restart.", "anchors": [{"file": "monotone/engine/wal/wal.c", "symbols": ["wal_open", "wal_write"]}, {"file": "monotone/engine/wal/wal_file.h", "symbols": ["wal_file_pread"]}, {"file": "monotone/runtime/runtime/file.h", "symbols": ["file_writev", "file_seek_to_end"]}]}
{"id": "C24", "title": "Log garbage collection never removes needed records", "statement": "Deleting log files keeps every record whose events are not yet stored in partition files; only files all of whose records are older than the oldest unsaved record are removed, and the newest file is always kept.", "quantifier": "For every list of log files and every oldest needed lsn.", "why_tests_cant": "All divisions of records over files and all relative positions of the threshold.", "anchors": [{"file": "monotone/engine/wal/wal.c", "symbols": ["wal_gc"]}, {"file": "monotone/engine/wal/wal_id.h", "symbols": ["wal_id_gc_between"]}, {"file": "monotone/engine/engine/op.c", "symbols": ["engine_gc"]}, {"file": "monotone/engine/io/memtable.c", "symbols": ["memtable_follow"]}]}
{"id": "C25", "title": "Acknowledged writes survive a crash", "statement": "With the log enabled, after a crash at any moment and a restart, every key reads as after the last acknowledged batch (or additionally a batch in flight, entirely or not at all).", "quantifier": "For every history of batches, refreshes, log rotations, garbage collections and crash points.", "why_tests_cant": "Crash points between any two file operations, combined with all histories.", "anchors": [{"file": "monotone/main/main/main.c", "symbols": ["main_start", "main_replay"]}, {"file": "monotone/engine/engine/write.c", "symbols": ["engine_write_replay", "engine_commit"]}, {"file": "monotone/engine/engine/refresh.c", "symbols": ["refresh"]}, {"file": "monotone/engine/engine/op.c", "symbols": ["engine_gc"]}]}
{"id": "C26", "title": "Restarting is idempotent", "statement": "Closing and reopening the database any number of times without writing gives the same contents each time, including after partitions were dropped and re-created.", "quantifier": "For every history and every number of restarts.", "why_tests_cant": "The effect of replaying the same log repeatedly on every possible history.", "anchors": [{"file": "monotone/main/main/main.c", "symbols": ["main_replay"]}, {"file": "monotone/engine/engine/op.c", "symbols": ["engine_drop_reference", "engine_drop"]}, {"file": "monotone/engine/wal/wal.c", "symbols": ["wal_write_op"]}, {"file": "monotone/engine/engine/write.c", "symbols": ["engine_write_replay"]}]}
{"id": "C27", "title": "A crash during refresh loses nothing", "statement": "If the process dies at any step of writing the new partition file, deleting the old one or renaming, reopening finds either the complete old file or the complete new file of every partition, never neither, and never accepts a partly written file.", "quantifier": "For every step of the file protocol, every leftover combination of files, local or moved between storages.", "why_tests_cant": "Each crash point and each combination of leftovers from earlier crashes would need its own test.", "anchors": [{"file": "monotone/engine/engine/refresh.c", "symbols": ["refresh_end", "refresh_apply"]}, {"file": "monotone/engine/engine/engine_recover.c", "symbols": ["engine_recover_validate", "engine_recover"]}, {"file": "monotone/engine/io/part.c", "symbols": ["part_create", "part_rename", "part_delete"]}, {"file": "monotone/cloud/cloud/id.h", "symbols": ["id_path"]}]}
{"id": "C28", "title": "Partition file names identify partition and state", "statement": "The name under which a partition file is stored decodes to exactly the partition min and file state (final, incomplete, complete, cloud, cloud incomplete) it was written for, and foreign names are rejected.", "quantifier": "For every 64-bit min and every state.", "why_tests_cant": "2^64 names; only a proof covers leading zeros, the maximum and overlong names.", "anchors": [{"file": "monotone/cloud/cloud/id.h", "symbols": ["id_path"]}, {"file": "monotone/engine/engine/engine_recover.c", "symbols": ["engine_recover_id"]}]}
{"id": "C29", "title": "Serial ids are unique and increasing", "statement": "In serial mode every event written without an explicit id gets an id larger than every id assigned before and larger than every id stored, also after restart, so an automatic id never overwrites an existing event.", "quantifier": "For every history of serial and explicit writes, deletes, drops, refreshes and restarts.", "why_tests_cant": "Depends on what remains in the last partition after arbitrary histories.", "anchors": [{"file": "monotone/engine/engine/engine.c", "symbols": ["engine_set_serial"]}, {"file": "monotone/engine/engine/write.c", "symbols": ["engine_write"]}, {"file": "monotone/runtime/config/global.h", "symbols": ["config_ssn_next", "config_ssn_set"]}]}
{"id": "C30", "title": "Open cursors stay ordered under concurrent writes", "statement": "While a cursor is open on a partition and the same thread keeps writing to it, every next returns an event with a strictly larger key than the one before, no event that existed all along is skipped or returned twice.", "quantifier": "For every table content, cursor position and sequence of inserts/updates before, at and after the position, including page splits.", "why_tests_cant": "All relative positions of inserts, cursor and split point.", "anchors": [{"file": "monotone/engine/io/memtable_iterator.h", "symbols": ["memtable_iterator_sync", "memtable_iterator_next"]}, {"file": "monotone/engine/io/memtable.c", "symbols": ["memtable_insert", "memtable_sync"]}]}
{"id": "C31", "title": "Partition locks are exclusive", "statement": "At most one thread at a time holds the access lock of a partition and at most one the service lock; a thread may take the same lock repeatedly and keeps it until it released it as often as it took it; a waiting thread proceeds only after that.", "quantifier": "For every number of threads and every interleaving of lock and unlock calls, nested or not.", "why_tests_cant": "Thread interleavings cannot be enumerated by tests.", "anchors": [{"file": "monotone/engine/engine/lockage.h", "symbols": ["lockage_lock", "lockage_unlock"]}, {"file": "monotone/engine/engine/engine.c", "symbols": ["engine_lock", "engine_unlock"]}, {"file": "monotone/engine/engine/ref.h", "symbols": ["ref_lock", "ref_unlock"]}]}
{"id": "C32", "title": "Writers cannot deadlock each other", "statement": "Concurrent batch writes always make progress: there is no reachable state in which every running writer waits for a partition lock held by another.", "quantifier": "For every set of concurrent batches over any partitions and every interleaving.", "why_tests_cant": "Deadlocks depend on rare interleavings.", "anchors": [{"file": "monotone/engine/engine/write.c", "symbols": ["engine_write"]}, {"file": "monotone/engine/engine/engine.c", "symbols": ["engine_lock"]}, {"file": "monotone/engine/engine/lockage.h", "symbols": ["lockage_lock"]}]}
{"id": "C33", "title": "Background requests are neither lost nor duplicated", "statement": "Every scheduled refresh, rotation, garbage collection, rebalance, upload request is executed exactly once by a worker of the right kind, in the order of scheduling among those a worker accepts, unless the service is shut down; the pending counters always match the queue.", "quantifier": "For every sequence of schedule/next/shutdown calls by any number of workers.", "why_tests_cant": "All interleavings of producers and workers with filters.", "anchors": [{"file": "monotone/engine/engine/service.h", "symbols": ["service_add", "service_next", "service_refresh", "service_rotate", "service_shutdown"]}, {"file": "monotone/engine/engine/service_req.h", "symbols": ["service_req_allocate"]}]}
{"id": "C34", "title": "Typed binary values round trip", "statement": "Every value (integers, reals, booleans, null, strings, arrays and maps, nested) written in the internal typed encoding is read back identically, consuming exactly the bytes written, and the computed size equals the bytes written; skipping a value advances exactly past it.", "quantifier": "For every value: all 64-bit integers, all string lengths that fit a 32-bit size with their header, all nesting.", "why_tests_cant": "Size classes switch at 32, 2^7, 2^8, 2^15, 2^16, 2^31, 2^32 and values nest arbitrarily.", "anchors": [{"file": "monotone/runtime/lib/data.h", "symbols": ["data_write_integer", "data_read_integer", "data_write_string", "data_read_string", "data_write_array", "data_read_array", "data_write_map", "data_read_map", "data_size_integer"]}, {"file": "monotone/runtime/lib/data_op.h", "symbols": ["data_skip"]}, {"file": "monotone/runtime/lib/encode.h", "symbols": ["encode_integer", "encode_string"]}]}
{"id": "C35", "title": "Configuration text round trip", "statement": "Saving the configuration as JSON text and loading it again restores every value unchanged.", "quantifier": "For every configuration value: integers, booleans, strings with any characters, nested arrays and maps.", "why_tests_cant": "All strings and 64-bit integers; quoting problems only show with particular characters.", "anchors": [{"file": "monotone/runtime/lib/json.c", "symbols": ["json_parse", "json_export"]}, {"file": "monotone/runtime/config/config.c", "symbols": ["config_save", "config_open"]}]}
{"id": "C36", "title": "A crash while saving the configuration never loses it", "statement": "Whatever the moment of a crash during saving the configuration, the next start finds either the old or the new configuration.", "quantifier": "For every crash point of the save sequence and every old/new configuration.", "why_tests_cant": "Crash points between file system calls are not reachable by tests without fault injection at each.", "anchors": [{"file": "monotone/runtime/config/config.c", "symbols": ["config_save", "config_open"]}, {"file": "monotone/main/main/main.c", "symbols": ["main_control_save_config"]}]}
{"id": "C37", "title": "Settings can only be changed when allowed", "statement": "SET changes a variable only if it exists, is not secret, is changeable in the current phase (before open or online), the value has the right type and is not a forbidden zero; otherwise it fails and changes nothing.", "quantifier": "For every variable, flag combination, phase and value.", "why_tests_cant": "The product of flags, phases and value kinds; also future variables.", "anchors": [{"file": "monotone/main/main/execute.c", "symbols": ["execute_set"]}, {"file": "monotone/runtime/config/var.h", "symbols": ["var_int_set", "var_string_set", "var_is"]}, {"file": "monotone/runtime/config/config.c", "symbols": ["config_find"]}]}
{"id": "C38", "title": "Storage statistics equal the stored data", "statement": "The size, event and partition counts reported for a storage always equal the sums over the partitions placed on it.", "quantifier": "For every history of creates, refreshes, moves, drops, uploads, downloads and restarts.", "why_tests_cant": "Counter drift accumulates over arbitrary histories.", "anchors": [{"file": "monotone/engine/storage/storage.h", "symbols": ["storage_add", "storage_remove", "storage_add_metrics", "storage_remove_metrics"]}, {"file": "monotone/engine/engine/op.c", "symbols": ["engine_drop_file"]}, {"file": "monotone/engine/engine/refresh.c", "symbols": ["refresh_apply"]}]}
{"id": "C39", "title": "Tiering moves the oldest partition of an over-full tier", "statement": "Rebalance acts only when a tier exceeds one of its configured limits; it then picks the oldest partition of the first such tier and moves it to the next tier's storage, or drops it when that tier is the last; it leaves tiers within limits alone and stops when all tiers are within limits.", "quantifier": "For every pipeline, storage contents and limits.", "why_tests_cant": "Every combination of tier fill levels and limits.", "anchors": [{"file": "monotone/engine/engine/op.c", "symbols": ["engine_rebalance_next", "engine_rebalance", "engine_rebalance_tier"]}, {"file": "monotone/engine/storage/tier.h", "symbols": ["Tier"]}, {"file": "monotone/engine/storage/storage.h", "symbols": ["storage_oldest"]}]}
{"id": "C40", "title": "Storages and clouds in use cannot be removed and renames keep references", "statement": "A storage that holds partitions or is used by the pipeline, and a cloud used by a storage, cannot be dropped; names stay unique; after a rename every reference (pipeline tiers, storages) follows, so the saved configuration can always be loaded again.", "quantifier": "For every sequence of create/drop/alter/rename operations.", "why_tests_cant": "Sequences of operations are unbounded.", "anchors": [{"file": "monotone/engine/storage/storage_mgr.c", "symbols": ["storage_mgr_create", "storage_mgr_drop", "storage_mgr_rename"]}, {"file": "monotone/engine/storage/pipeline.c", "symbols": ["pipeline_alter", "pipeline_rename"]}, {"file": "monotone/cloud/cloud/cloud_mgr.c", "symbols": ["cloud_mgr_drop", "cloud_mgr_rename"]}, {"file": "monotone/main/main/execute.c", "symbols": ["execute_storage_alter", "execute_cloud_alter"]}]}
{"id": "C41", "title": "A partition always keeps a readable copy", "statement": "Uploading, downloading, dropping the local or the cloud copy and refreshing a partition never leave it without any stored copy of its data unless the partition itself was dropped; reads use a copy that exists.", "quantifier": "For every sequence of operations and failure injected at each remote call.", "why_tests_cant": "All operation sequences with failures at every point.", "anchors": [{"file": "monotone/engine/io/part.c", "symbols": ["part_upload", "part_download", "part_offload", "part_delete"]}, {"file": "monotone/engine/engine/op.c", "symbols": ["engine_upload", "engine_download", "engine_drop_file"]}, {"file": "monotone/engine/engine/refresh.c", "symbols": ["refresh_begin"]}]}
{"id": "C42", "title": "Dropping a range drops exactly the partitions inside it", "statement": "DROP/MOVE/REFRESH PARTITIONS BETWEEN min AND max acts on exactly the partitions that lie entirely inside [min,max], once each, and terminates; partitions outside are untouched.", "quantifier": "For every partition layout and every min, max including 0 and 2^64-1.", "why_tests_cant": "All layouts and ranges; wrap-around at the end of the id space.", "anchors": [{"file": "monotone/engine/engine/op.c", "symbols": ["engine_foreach", "engine_drop_range", "engine_refresh_range"]}]}
{"id": "C43", "title": "Memory accounting is exact", "statement": "The memory manager's counts of used and cached pages always match the pages handed out and kept, the configured limit is never exceeded by pages in use, and releasing a table returns all its pages.", "quantifier": "For every sequence of page requests and releases, every cache size and limit.", "why_tests_cant": "Unbounded sequences of allocation and release.", "anchors": [{"file": "monotone/runtime/lib/memory_mgr.h", "symbols": ["memory_mgr_pop", "memory_mgr_push"]}, {"file": "monotone/runtime/lib/heap.h", "symbols": ["heap_allocate", "heap_reset"]}]}
{"id": "C44", "title": "Table allocations never overlap", "statement": "Memory returned for two events or pages of the same in-memory table never overlaps and lies inside a page; requests that cannot fit a page fail cleanly.", "quantifier": "For every sequence of allocation sizes and every page size.", "why_tests_cant": "Sizes interact with page boundaries in unboundedly many ways.", "anchors": [{"file": "monotone/runtime/lib/heap.h", "symbols": ["heap_allocate"]}, {"file": "monotone/engine/io/event.h", "symbols": ["event_allocate", "event_copy"]}]}
{"id": "C45", "title": "UUID text round trip", "statement": "The text form of a storage uuid parses back to the same uuid, upper or lower case, and malformed text is rejected.", "quantifier": "For all 2^128 uuids.", "why_tests_cant": "2^128 values.", "anchors": [{"file": "monotone/runtime/lib/uuid.c", "symbols": ["uuid_to_string", "uuid_from_string_nothrow"]}]}
{"id": "C46", "title": "The compression codec used is the one requested", "statement": "A compression context obtained for a codec is always a context of that codec, however contexts were returned and reused before, and is never handed to two users at once, so a region is always compressed and decompressed with the codec recorded in its file.", "quantifier": "For every sequence of obtaining and returning contexts of several codecs.", "why_tests_cant": "Only particular mixes of storages with different codecs reuse a wrong context.", "anchors": [{"file": "monotone/runtime/lib/compression_mgr.c", "symbols": ["compression_mgr_pop", "compression_mgr_push"]}, {"file": "monotone/runtime/lib/cache.h", "symbols": ["cache_pop", "cache_push"]}]}
{"id": "C47", "title": "Number units in commands mean what they say", "statement": "In commands an integer followed by a unit is multiplied by that unit: us, ms, sec, min, hour, day, week, month (30 days), year (12 months) in microseconds; kb/mb/gb/tb powers of 1000, kib/mib/gib/tib powers of 1024; a result that does not fit 64 bits is not silently wrapped.", "quantifier": "For every integer and every unit keyword.", "why_tests_cant": "Every 64-bit integer times every unit; overflow positions.", "anchors": [{"file": "monotone/main/command/lex.c", "symbols": ["lex_integer_mod", "lex_next", "keywords"]}]}
{"id": "C48", "title": "Decoding a stored object checks every field", "statement": "Loading a stored configuration object succeeds only if every expected field is present with the right type, ignores no unknown field silently, and yields exactly the written values; storages, clouds and tiers written are read back identical.", "quantifier": "For every object written and every map with missing, extra, repeated or mistyped fields.", "why_tests_cant": "All subsets, orders and types of fields.", "anchors": [{"file": "monotone/runtime/lib/decode.h", "symbols": ["decode_map"]}, {"file": "monotone/cloud/cloud/source.h", "symbols": ["source_read", "source_write"]}, {"file": "monotone/cloud/cloud/cloud_config.h", "symbols": ["cloud_config_read", "cloud_config_write"]}, {"file": "monotone/engine/storage/tier_config.h", "symbols": ["tier_config_read", "tier_config_write"]}]}
{"id": "C49", "title": "Replay skips exactly what is already stored", "statement": "On restart a logged event is applied to memory if and only if its partition file does not already contain the effect of that log record; so no newer stored version is overwritten by an older logged one and no unsaved event is skipped.", "quantifier": "For every partition file lsn, every record, and batches that span several partitions.", "why_tests_cant": "Batches spanning partitions refreshed at different times.", "anchors": [{"file": "monotone/engine/engine/write.c", "symbols": ["engine_write_replay"]}, {"file": "monotone/engine/io/merger.c", "symbols": ["merger_execute"]}, {"file": "monotone/engine/io/memtable.c", "symbols": ["memtable_follow"]}]}
{"id": "C50", "title": "Cleanup handlers run exactly once, innermost first", "statement": "When an operation fails, every cleanup registered in the active scopes runs exactly once in reverse order of registration up to the enclosing catch point, and on success each runs exactly once at scope end; locks are therefore always released.", "quantifier": "For every nesting of scopes, catch points, and failure position.", "why_tests_cant": "All nestings and failure positions.", "anchors": [{"file": "monotone/runtime/runtime/exception.h", "symbols": ["exception_mgr_throw", "exception_mgr_execute_guards", "exception_mgr_leave"]}, {"file": "monotone/runtime/runtime/guard.h", "symbols": ["guard_runner", "unguard", "guard_pop"]}]}
{"id": "C51", "title": "A partition is scheduled for refresh when it reaches its watermark, once", "statement": "A partition is queued for refresh when its in-memory size exceeds the configured watermark and it is not already queued or being refreshed; after the refresh it can be queued again.", "quantifier": "For every sequence of writes, refreshes (successful or failing) and watermarks.", "why_tests_cant": "Long histories with failures in between.", "anchors": [{"file": "monotone/engine/io/part.h", "symbols": ["part_refresh_ready"]}, {"file": "monotone/engine/engine/write.c", "symbols": ["engine_commit"]}, {"file": "monotone/engine/engine/refresh.c", "symbols": ["refresh_begin", "refresh_end"]}]}
{"id": "C52", "title": "Checkpoint empties memory and truncates the log", "statement": "After a checkpoint with no concurrent writes, every partition's data is in its file and a following garbage collection keeps only the newest log file.", "quantifier": "For every set of partitions with unsaved data.", "why_tests_cant": "Any number of partitions and distribution of lsns.", "anchors": [{"file": "monotone/engine/engine/op.c", "symbols": ["engine_checkpoint", "engine_gc"]}, {"file": "monotone/engine/wal/wal.c", "symbols": ["wal_gc"]}]}
{"id": "C53", "title": "Reading a command never leaves the tokenizer's memory", "statement": "Any text passed as a command is read as a sequence of tokens or rejected with an error; the tokenizer never reads or writes outside its buffers and never aborts.", "quantifier": "For every text (any bytes, any length) and every sequence of reads a parser makes.", "why_tests_cant": "All texts; the failing ones (several integers in a row) are syntactically wrong commands nobody tests.", "anchors": [{"file": "monotone/main/command/lex.c", "symbols": ["lex_next", "lex_integer_mod", "lex_push", "lex_if"]}]}
{"id": "C54", "title": "A checksum does not depend on the processor or on how it is fed", "statement": "The checksum used in log records and partition files is CRC-32C without initial or final inversion, and is the same whether it is computed with the processor instruction or with the lookup tables, at any memory alignment, and whether the data is fed in one piece or in several; two inputs of the same length that differ only within 32 consecutive bits have different checksums.", "quantifier": "For every byte string, start value, address, way of cutting the input into pieces, and every difference confined to 32 consecutive bits.", "why_tests_cant": "The table code has 8x256 constants and an alignment prologue; a wrong constant shows for some inputs only, and tests run on one processor.", "anchors": [{"file": "monotone/runtime/lib/crc.c", "symbols": ["crc32_sw", "crc32_hw", "crc32_hw_byte", "crc_tableil8_o32"]}]}
{"id": "C55", "title": "A new partition file contains nothing of an earlier one", "statement": "The file a successful refresh leaves consists of exactly the bytes the refresh wrote, so that after a restart it is read as written, even if earlier refreshes of the partition failed and left partial or complete files of the same name behind.", "quantifier": "For every history of failed refreshes (each having written any number of bytes of any file), successful refreshes and restarts, and every file contents.", "why_tests_cant": "Needs a failed refresh (disk full, sync error) followed by a refresh that writes less and a restart; the in-memory copy of the index hides the damage until then.", "anchors": [{"file": "monotone/runtime/runtime/file.h", "symbols": ["file_create", "file_open_as"]}, {"file": "monotone/engine/io/part.c", "symbols": ["part_create"]}, {"file": "monotone/engine/io/merger.c", "symbols": ["merger_execute", "merger_reset"]}, {"file": "monotone/engine/io/index_op.c", "symbols": ["index_open"]}]}
{"id": "C56", "title": "Reads and writes of files are complete or fail", "statement": "The read and write loops transfer all bytes, in order and once, whatever part of a request the operating system serves at a time and however often a call is interrupted, or report an error if a call fails or the file ends; they end after finitely many calls; and the size recorded for a file is always its real size, so that the next write and its recorded offset agree.", "quantifier": "For every data (also empty, and vectors with empty parts), every offset and size, and every sequence of answers of the system calls.", "why_tests_cant": "Partial writes and interrupted calls hardly ever happen in tests, and there are exponentially many ways to cut a transfer.", "anchors": [{"file": "monotone/runtime/runtime/vfs.c", "symbols": ["vfs_read", "vfs_pread", "vfs_write", "vfs_writev"]}, {"file": "monotone/runtime/runtime/file.h", "symbols": ["file_write", "file_writev", "file_pread"]}]}
{"id": "C57", "title": "A cloud request is signed and addressed for its object", "statement": "Every request to the object storage carries the base 64 form of the signature of its own method, type, date and object, and the address of exactly the bucket or partition it is about; preparing it stays within its buffers, and requests about different objects have different addresses.", "quantifier": "For every cloud configuration (url, login, password of any length), every storage and partition id, and every digest.", "why_tests_cant": "A request cut or signed wrongly fails only at the remote end; a cut address makes one partition overwrite another.", "anchors": [{"file": "monotone/cloud/s3/s3_request.c", "symbols": ["s3_request_encode_base64", "s3_request_prepare"]}]}
{"id": "C58", "title": "A command is understood as written", "statement": "A command text is accepted exactly if it is made of words, numbers with units, strings and symbols that form one command of the grammar, and then means that command with all its names, numbers and options; every other text is refused with a message.", "quantifier": "For every text of bytes, every command, every list of options and tiers of any length, and every setting of the instance.", "why_tests_cant": "A command read differently than written drops, moves or reconfigures the wrong thing.", "anchors": [{"file": "monotone/main/command/parse.c", "symbols": ["parse"]}, {"file": "monotone/main/command/parse_partition.c", "symbols": ["parse_partition_drop"]}, {"file": "monotone/main/command/parse_storage.c", "symbols": ["parse_storage_create"]}, {"file": "monotone/main/command/parse_pipeline.c", "symbols": ["parse_pipeline_alter"]}, {"file": "monotone/main/command/parse_cloud.c", "symbols": ["parse_cloud_create"]}, {"file": "monotone/main/command/parse_config.c", "symbols": ["parse_show"]}]}
{"id": "C59", "title": "Operations cannot deadlock each other", "statement": "Whatever batches, cursors, refreshes, drops, moves, transfers and commands run in whatever threads, and however they are interleaved, all of them can finish: there is no state in which every remaining thread waits for a lock.", "quantifier": "For every number of threads, every sequence of calls in each of them, every interleaving, and both ways a reader-writer lock may treat waiting writers.", "why_tests_cant": "A deadlock stops the application that embeds the store, without an error message, and the service worker with it.", "anchors": [{"file": "monotone/engine/engine/engine.c", "symbols": ["engine_lock"]}, {"file": "monotone/engine/engine/engine.c", "symbols": ["engine_unlock"]}, {"file": "monotone/engine/engine/op.c", "symbols": ["engine_drop_file"]}, {"file": "monotone/engine/engine/refresh.c", "symbols": ["refresh_run"]}, {"file": "monotone/engine/engine/engine_cursor.h", "symbols": ["engine_cursor_next"]}, {"file": "monotone/main/main/execute.c", "symbols": ["main_execute"]}]}
{"id": "C60", "title": "A write reported as failed leaves no trace", "statement": "When writing a batch to the log fails, the batch is not in the database after a restart either, and the failure does not harm batches acknowledged before or after it: the restart finds exactly the acknowledged ones.", "quantifier": "For every log state the code can reach, and every sequence of writes that succeed, writes that fail after any number of bytes or in the sync, rotations and restarts.", "why_tests_cant": "The caller was told that nothing was written and will retry or do something else; a full disk or an I/O error must not destroy what comes later.", "anchors": [{"file": "monotone/engine/wal/wal.c", "symbols": ["wal_write"]}, {"file": "monotone/engine/wal/wal.c", "symbols": ["wal_write_op"]}, {"file": "monotone/engine/wal/wal_file.h", "symbols": ["wal_file_writev"]}, {"file": "monotone/runtime/runtime/file.h", "symbols": ["file_writev"]}, {"file": "monotone/engine/engine/write.c", "symbols": ["engine_rollback"]}]}
{"id": "C61", "title": "A directory is used by one environment at a time, and is free again when that one is closed", "statement": "Two environments, in one process or in several, never work on the same directory at the same time. Opening is refused as in use only while another environment has the directory; when it is freed, or its process ends, the directory can be opened again.", "quantifier": "For every history of any number of processes and handles: creating, opening with success or failure at any step, opening again, freeing, and processes ending at any moment.", "why_tests_cant": "Two writers on one directory destroy each other's files; a directory that stays locked keeps the application from starting.", "anchors": [{"file": "monotone/main/main/main.c", "symbols": ["main_deploy"]}, {"file": "monotone/main/main/main.c", "symbols": ["main_free"]}, {"file": "monotone/main/api/monotone.c", "symbols": ["monotone_open"]}, {"file": "monotone/main/api/monotone.c", "symbols": ["monotone_free"]}, {"file": "monotone/runtime/runtime/file.h", "symbols": ["file_open_as"]}, {"file": "monotone/runtime/runtime/file.h", "symbols": ["file_lock"]}]}
{"id": "C62", "title": "What is read back from the cloud is what was put there", "statement": "An upload that succeeds stores exactly the bytes of the partition file, and no upload ever stores a part of one. A download that succeeds leaves exactly the object in the file, and reading a region that succeeds gives exactly the bytes of that region.", "quantifier": "For every file, object, region and offset, however libcurl asks for and delivers the bytes in pieces, with interrupted, short and failing system calls, broken connections, refused requests and lost answers.", "why_tests_cant": "After an upload the local copy may be dropped, so the cloud has the only one.", "anchors": [{"file": "monotone/cloud/s3/s3_op.c", "symbols": ["s3_op_upload"]}, {"file": "monotone/cloud/s3/s3_op.c", "symbols": ["s3_op_upload_cb"]}, {"file": "monotone/cloud/s3/s3_op.c", "symbols": ["s3_op_download"]}, {"file": "monotone/cloud/s3/s3_op.c", "symbols": ["s3_op_download_cb"]}, {"file": "monotone/cloud/s3/s3_op.c", "symbols": ["s3_op_read"]}, {"file": "monotone/cloud/s3/s3_op.c", "symbols": ["s3_op_read_cb"]}, {"file": "monotone/cloud/s3/s3_request.c", "symbols": ["s3_request_execute"]}]}
{"id": "C63", "title": "SHOW does not reveal passwords and encryption keys", "statement": "What SHOW answers does not depend on the password of any cloud or on the encryption key of any storage: two databases that differ in nothing else give the same answers.", "quantifier": "For every SHOW command that the parser accepts, with any list of items and with or without DEBUG, and every state of the database.", "why_tests_cant": "Answers of SHOW end up in logs and on screens; SHOW CLOUDS replaces the password and SHOW STORAGES leaves the key out for this reason.", "anchors": [{"file": "monotone/main/main/execute.c", "symbols": ["execute_show_op"]}, {"file": "monotone/main/main/execute.c", "symbols": ["execute_show"]}, {"file": "monotone/engine/engine/engine_show.c", "symbols": ["engine_show"]}, {"file": "monotone/cloud/cloud/cloud_mgr.c", "symbols": ["cloud_mgr_show"]}, {"file": "monotone/cloud/cloud/cloud_config.h", "symbols": ["cloud_config_write"]}, {"file": "monotone/cloud/cloud/source.h", "symbols": ["source_write"]}, {"file": "monotone/runtime/config/config.c", "symbols": ["config_show"]}, {"file": "monotone/runtime/config/var.h", "symbols": ["var_encode"]}]}
{"id": "C64", "title": "SHOW tells what is there, as JSON", "statement": "The answer of SHOW is a JSON text for a document that describes the state: counters of memory and log, configurations of clouds and storages, sums over exactly the partitions of a storage, the partition that covers the id, all partitions in order of id, tiers, variables with their values. Something named that is not there is an error.", "quantifier": "For every SHOW command that the parser accepts, with any list of items and with or without DEBUG, and every consistent state of an open database.", "why_tests_cant": "SHOW is the only way for programs and people to see what the database holds; a text that cannot be read as JSON or that tells wrong numbers misleads them.", "anchors": [{"file": "monotone/main/main/execute.c", "symbols": ["execute_show_op"]}, {"file": "monotone/main/main/execute.c", "symbols": ["execute_show"]}, {"file": "monotone/engine/engine/engine_show.c", "symbols": ["engine_show"]}, {"file": "monotone/engine/io/stats.h", "symbols": ["stats_add"]}, {"file": "monotone/engine/io/stats.h", "symbols": ["stats_show_part"]}, {"file": "monotone/engine/storage/storage.h", "symbols": ["storage_show"]}, {"file": "monotone/runtime/lib/memory_mgr.h", "symbols": ["memory_mgr_show"]}, {"file": "monotone/engine/wal/wal.c", "symbols": ["wal_show"]}, {"file": "monotone/runtime/config/config.c", "symbols": ["config_show"]}, {"file": "monotone/runtime/lib/json.c", "symbols": ["json_export_pretty"]}]}
{"id": "C65", "title": "Messages are logged and reported safely, whatever their length", "statement": "A message is written to the log in one line with date, time and prefix, or, when it is too long for the buffer, its beginning is; the text of an error that the user can read is the message or its first 255 bytes. No memory outside of the buffers is used.", "quantifier": "For every message, every state of the logger and every time.", "why_tests_cant": "Error messages quote names from commands, so their length is chosen by whoever writes the command; a logger that leaves its buffer on the stack turns a long name into a memory error.", "anchors": [{"file": "monotone/runtime/runtime/logger.c", "symbols": ["logger_write"]}, {"file": "monotone/runtime/runtime/error.h", "symbols": ["error_throw_as"]}, {"file": "monotone/runtime/runtime/log.h", "symbols": ["log_at"]}, {"file": "monotone/main/api/monotone.c", "symbols": ["monotone_error"]}, {"file": "monotone/runtime/runtime/buf.h", "symbols": ["buf_vprintf"]}]}
{"id": "C66", "title": "Linked lists are sequences", "statement": "Putting links into lists and taking them out does to the memory what it does to sequences: the list has the elements in order, forwards and backwards, other lists and links are not touched, and no link that is not there is read. Loops go through each element once, in order; a safe loop may remove and free the element it is at. A cache gives back what was put into it, first in, first out.", "quantifier": "For every memory with any number of lists, every sequence of operations that put links that are in no list into one and take out links that are in one, and every selection of elements that a loop removes.", "why_tests_cant": "Storages, clouds, tiers, partitions, requests and services are in such lists; a wrong link loses objects, makes loops that do not end or uses freed memory.", "anchors": [{"file": "monotone/runtime/runtime/list.h", "symbols": ["list_append"]}, {"file": "monotone/runtime/runtime/list.h", "symbols": ["list_unlink"]}, {"file": "monotone/runtime/runtime/list.h", "symbols": ["list_push"]}, {"file": "monotone/runtime/runtime/list.h", "symbols": ["list_pop"]}, {"file": "monotone/runtime/runtime/list.h", "symbols": ["list_foreach_safe"]}, {"file": "monotone/runtime/lib/cache.h", "symbols": ["cache_pop"]}]}
{"id": "C67", "title": "Buffers grow and keep what was put into them", "statement": "A growing buffer has exactly the bytes that were put into it, however often it was moved to a larger block; space that was asked for and not used does not become part of it; nothing outside of its block is written. When there is no memory the operation fails and the buffer stays as it was. A vector of pieces for writev has exactly the pieces that were added.", "quantifier": "For every sequence of writes, reservations that are used in part, truncations and resets, every state of the allocator at each of them and every content of fresh memory.", "why_tests_cant": "Log records, file regions, indexes, configuration and answers are all built in these buffers.", "anchors": [{"file": "monotone/runtime/runtime/buf.h", "symbols": ["buf_reserve"]}, {"file": "monotone/runtime/runtime/buf.h", "symbols": ["buf_write"]}, {"file": "monotone/runtime/runtime/buf.h", "symbols": ["buf_truncate"]}, {"file": "monotone/runtime/runtime/iov.h", "symbols": ["iov_add"]}]}
{"id": "C68", "title": "Random numbers run through a full cycle and keys get made of them", "statement": "With a seed that is not all zero bits, the generator's states repeat after exactly 2^128 - 1 numbers and no sooner, and within each such cycle every 64-bit number comes exactly 2^64 times (zero one time less). A request for a number of random letters and digits ends, writes exactly that many bytes, all of them letters or digits and the first ones in the generator's output, and draws no more numbers than it needs. CREATE STORAGE with an encryption and no key makes a key of 32 such bytes; a given key is kept and without encryption none is made.", "quantifier": "For every seed of 128 bits but zero, every number of draws, every 64-bit number, and every array and requested size from 1 to the size of the array.", "why_tests_cant": "Encryption keys and initialisation vectors, and storage UUIDs, are drawn from this generator, and the loop which makes a key has no limit.", "anchors": [{"file": "monotone/runtime/lib/random.c", "symbols": ["random_xorshift128plus"]}, {"file": "monotone/runtime/lib/random.c", "symbols": ["random_generate"]}, {"file": "monotone/runtime/lib/random.c", "symbols": ["random_generate_alnum"]}, {"file": "monotone/main/command/parse_storage.c", "symbols": ["parse_storage_create"]}]}
{"id": "C69", "title": "Closing ends all workers, and ends", "statement": "From the moment an environment is being closed, every background worker ends after the request it is working on, however the threads are scheduled; closing waits for each worker thread exactly once and comes to an end; when the environment's memory is given back no thread runs any more. Until then no worker sleeps while there is a request that it could take.", "quantifier": "For every history of opening (failed or not), scheduled requests, failing and succeeding actions, spurious wake-ups and closing, with any number of workers and any interleaving.", "why_tests_cant": "A worker that is not woken makes monotone_free hang; one that is not waited for uses freed memory.", "anchors": [{"file": "monotone/engine/engine/worker_mgr.c", "symbols": ["worker_mgr_start"]}, {"file": "monotone/engine/engine/worker_mgr.c", "symbols": ["worker_mgr_stop"]}, {"file": "monotone/engine/engine/worker.c", "symbols": ["worker_main"]}, {"file": "monotone/engine/engine/service.h", "symbols": ["service_next"]}, {"file": "monotone/engine/engine/service.h", "symbols": ["service_shutdown"]}, {"file": "monotone/main/main/main.c", "symbols": ["main_stop"]}]}
{"id": "C70", "title": "Every file has a path of its own", "statement": "The files of an environment -- configuration, its old copy, log, log files, the partition files of all storages in all their states, the test cloud's copies -- all have different paths, whatever commands created, dropped, renamed and moved storages. The directory of a storage has all partition files of this storage, and recovery takes nothing else that is in there for a partition file.", "quantifier": "For every directory, every sequence of storage commands, every partition and state.", "why_tests_cant": "Two files at one path overwrite each other; recovery would take partitions of one storage for those of another.", "anchors": [{"file": "monotone/cloud/cloud/source.h", "symbols": ["source_pathfmt"]}, {"file": "monotone/cloud/cloud/id.h", "symbols": ["id_path"]}, {"file": "monotone/cloud/cloud/mock.c", "symbols": ["mock_path"]}, {"file": "monotone/engine/wal/wal_file.h", "symbols": ["wal_file_open"]}, {"file": "monotone/engine/storage/storage_mgr.c", "symbols": ["storage_mgr_create"]}, {"file": "monotone/engine/storage/storage_mgr.c", "symbols": ["storage_mgr_alter"]}, {"file": "monotone/runtime/config/config.c", "symbols": ["config_save"]}, {"file": "monotone/engine/engine/engine_recover.c", "symbols": ["engine_recover_storage"]}]}
{"id": "C71", "title": "Nothing that was freed is used by another thread", "statement": "Whatever threads write, read by cursors, refresh, drop, fill and show, and however they take turns: no thread uses a partition or a reference after it has been freed, none is freed twice, and no thread releases a lock that nobody holds.", "quantifier": "For every number of threads, every program of each that uses its cursors properly, and every schedule.", "why_tests_cant": "A refresh replaces and frees a partition while others read and write it, and a drop frees the reference; a use after that reads or writes memory that belongs to something else.", "anchors": [{"file": "monotone/engine/engine/refresh.c", "symbols": ["refresh_apply"]}, {"file": "monotone/engine/engine/refresh.c", "symbols": ["refresh_end"]}, {"file": "monotone/engine/engine/op.c", "symbols": ["engine_drop_reference"]}, {"file": "monotone/engine/engine/engine.c", "symbols": ["engine_lock"]}, {"file": "monotone/engine/engine/engine.c", "symbols": ["engine_unlock"]}, {"file": "monotone/engine/engine/write.c", "symbols": ["engine_commit"]}, {"file": "monotone/engine/engine/engine_cursor.h", "symbols": ["engine_cursor_open_part"]}, {"file": "monotone/engine/engine/lockage.h", "symbols": ["lockage_lock"]}]}
{"id": "C72", "title": "The log tells what concurrent threads did", "statement": "Threads write batches, fail and roll back, read and drop at the same time. A reader finds in a partition exactly what the records in the log tell at that moment, and when all threads have come to their end memory holds what the log tells, so a restart gives back what was there.", "quantifier": "For every number of threads, every program of writes, failing writes, scans and drops of each, and every schedule.", "why_tests_cant": "Events become visible before their record is written, and records of different threads are written in some order; if that order is not the one in which memory was changed, a restart brings back other values than those that were read.", "anchors": [{"file": "monotone/engine/engine/write.c", "symbols": ["engine_write"]}, {"file": "monotone/engine/engine/write.c", "symbols": ["engine_commit"]}, {"file": "monotone/engine/engine/write.c", "symbols": ["engine_rollback"]}, {"file": "monotone/engine/engine/op.c", "symbols": ["engine_drop_reference"]}, {"file": "monotone/engine/wal/wal.c", "symbols": ["wal_write"]}, {"file": "monotone/engine/wal/wal.c", "symbols": ["wal_write_op"]}, {"file": "monotone/engine/engine/lockage.h", "symbols": ["lockage_unlock"]}]}
{"id": "C73", "title": "A command does what it says or changes nothing", "statement": "A command on clouds, storages or the pipeline is refused and changes nothing, neither in memory nor in the configuration file, or it does what it says: then memory and file both hold the new catalog, and every partition is on the storage where it was. It is refused only if the catalog asks for it or a directory, a cloud or partitions are in the way.", "quantifier": "For every history of commands, failed saves, operations on partitions and restarts, every further command and every failure of directories, clouds and the configuration file.", "why_tests_cant": "An administrator who gets an error assumes that nothing has happened; a change that stays in memory is saved by the next command that succeeds.", "anchors": [{"file": "monotone/main/main/execute.c", "symbols": ["execute_storage_alter"]}, {"file": "monotone/main/main/execute.c", "symbols": ["execute_cloud_create"]}, {"file": "monotone/engine/storage/storage_mgr.c", "symbols": ["storage_mgr_alter"]}, {"file": "monotone/engine/storage/storage_mgr.c", "symbols": ["storage_mgr_create"]}, {"file": "monotone/engine/storage/storage_mgr.c", "symbols": ["storage_set_cloud"]}, {"file": "monotone/engine/storage/pipeline.c", "symbols": ["pipeline_alter"]}, {"file": "monotone/cloud/cloud/cloud_mgr.c", "symbols": ["cloud_mgr_rename"]}]}
{"id": "C74", "title": "Threads do not race for partition data", "statement": "No two threads ever touch the same data of the engine at the same time with one of them writing it: the mapping of partitions, the lists of the storages, the locks of the partitions, and the state, index, memtables, cloud and refresh mark of every partition.", "quantifier": "For every number of threads, every sequence of writes, cursors, drops, refreshes, downloads, uploads, SHOW, rebalancing and checkpoints on them, and every order in which they take turns.", "why_tests_cant": "A data race is undefined behaviour in C: reads may see half of an index, and counters or lists may be lost.", "anchors": [{"file": "monotone/engine/engine/engine.c", "symbols": ["engine_lock"]}, {"file": "monotone/engine/engine/lockage.h", "symbols": ["lockage_lock"]}, {"file": "monotone/engine/engine/write.c", "symbols": ["engine_write"]}, {"file": "monotone/engine/engine/refresh.c", "symbols": ["refresh_run"]}, {"file": "monotone/engine/engine/op.c", "symbols": ["engine_download"]}, {"file": "monotone/engine/engine/op.c", "symbols": ["engine_rebalance_next"]}, {"file": "monotone/engine/engine/engine_show.c", "symbols": ["engine_show"]}]}
{"id": "C75", "title": "A partition reads the same wherever its copies are", "statement": "After a partition file was written, moving it to the cloud and back, dropping one of two copies and restarting never changes the events read from the partition, whether they are read from the local file or from the cloud, also when such an operation fails and whatever a download delivers.", "quantifier": "For all events, storage settings and codecs, and every sequence of uploads, downloads, drops of a copy when the other exists, and restarts, each failing at any system call or cloud request or not.", "why_tests_cant": "Tiering moves partitions automatically; if a failed transfer spoils the index in memory or both copies get lost, events disappear.", "anchors": [{"file": "monotone/engine/io/part.c", "symbols": ["part_open"]}, {"file": "monotone/engine/io/part.c", "symbols": ["part_download"]}, {"file": "monotone/engine/io/part.c", "symbols": ["part_upload"]}, {"file": "monotone/engine/io/part.c", "symbols": ["part_create"]}, {"file": "monotone/engine/io/part.c", "symbols": ["part_offload"]}, {"file": "monotone/engine/io/index_op.c", "symbols": ["index_open"]}, {"file": "monotone/engine/io/index_op.c", "symbols": ["index_read"]}, {"file": "monotone/engine/engine/op.c", "symbols": ["engine_download"]}, {"file": "monotone/engine/engine/op.c", "symbols": ["engine_upload"]}, {"file": "monotone/engine/engine/op.c", "symbols": ["engine_drop_file"]}, {"file": "monotone/engine/engine/engine_recover.c", "symbols": ["engine_recover_validate"]}]}
{"id": "C76", "title": "The memory of a command is given back once", "statement": "However the execution of a command text ends, also when it is refused or an allocation fails, every block allocated for the command has been freed exactly once, no freed block was used, and nothing else is left but the result handed to the caller.", "quantifier": "For all command texts, all outcomes of the execution, and every choice of allocations that fail.", "why_tests_cant": "The library lives inside another process; each refused command that loses memory adds up, and a double free would corrupt the heap of the host.", "anchors": [{"file": "monotone/main/command/parse.c", "symbols": ["parse"]}, {"file": "monotone/main/command/parse_storage.c", "symbols": ["parse_storage_create"]}, {"file": "monotone/main/command/parse_cloud.c", "symbols": ["parse_cloud_alter"]}, {"file": "monotone/main/command/parse_pipeline.c", "symbols": ["parse_pipeline_set"]}, {"file": "monotone/main/command/parse_config.c", "symbols": ["parse_show"]}, {"file": "monotone/main/command/cmd.h", "symbols": ["cmd_free"]}, {"file": "monotone/main/main/execute.c", "symbols": ["main_execute"]}]}
{"id": "C77", "title": "Packed data is read back, other data is refused", "statement": "A region or index that was compressed and encrypted is read back byte for byte, whatever the buffers and contexts were used for before; and for any stored bytes reading ends, stays inside its memory, and gives either an error or a result that depends only on these bytes.", "quantifier": "For all regions and indexes of up to 2^29 bytes, all stored bytes, codecs, levels, keys, random vectors, earlier contents of buffers, and fresh memory.", "why_tests_cant": "Checksums of regions are not checked on reading (C19), so the unpacking is what stands between a damaged file and the reader; memory of other regions must not be passed off as data.", "anchors": [{"file": "monotone/runtime/lib/encryption_aes.c", "symbols": ["encryption_aes_encrypt", "encryption_aes_decrypt"]}, {"file": "monotone/runtime/lib/compression_lz4.c", "symbols": ["compression_lz4_compress", "compression_lz4_decompress"]}, {"file": "monotone/runtime/lib/compression_zstd.c", "symbols": ["compression_zstd_compress", "compression_zstd_decompress"]}, {"file": "monotone/engine/io/reader.h", "symbols": ["reader_execute"]}, {"file": "monotone/engine/io/index_op.c", "symbols": ["index_read"]}, {"file": "monotone/engine/io/region_writer.h", "symbols": ["region_writer_stop"]}]}
{"id": "C78", "title": "A cursor that fails gives everything back, and goes on where it was", "statement": "Whatever fails while a cursor is opened, moved and freed, all locks, contexts, list entries and memory are given back exactly once; a cursor at its end holds only memory; and an application that repeats failed calls until the end gets all live events from its key on, no other event, and in order.", "quantifier": "For all partitions, keys, sequences of calls and failing steps: allocations, contexts, reads of regions, decryption, decompression.", "why_tests_cant": "Partitions read from files or from the cloud fail in the middle of a scan; a lock that is kept blocks the engine, and an event that is passed over in silence is lost to the application.", "anchors": [{"file": "monotone/main/api/monotone.c", "symbols": ["monotone_cursor", "monotone_next", "monotone_read", "monotone_free"]}, {"file": "monotone/engine/engine/engine_cursor.h", "symbols": ["engine_cursor_open", "engine_cursor_next", "engine_cursor_close", "engine_cursor_skip_deletes"]}, {"file": "monotone/engine/io/part_cursor.h", "symbols": ["part_cursor_open"]}, {"file": "monotone/engine/io/part_iterator.h", "symbols": ["part_iterator_next"]}, {"file": "monotone/engine/io/merge_iterator.h", "symbols": ["merge_iterator_next"]}, {"file": "monotone/engine/io/reader.h", "symbols": ["reader_execute", "reader_open"]}]}
{"id": "C79", "title": "Every lock is given back, whatever fails", "statement": "Whatever fails inside a call of the library or inside a worker, the thread ends the call with the locks it began with: it never waits for a lock it has itself, never gives back one it does not have, and takes the control lock, the engine mutex, partition locks and the locks of queue, log and memory in one order.", "quantifier": "For all calls (open, write, every command, the worker), all data, all failing steps, and all locks of open cursors held before.", "why_tests_cant": "A lock that is kept after a failed allocation or write blocks every thread of the application for good.", "anchors": [{"file": "monotone/engine/engine/write.c", "symbols": ["engine_write", "engine_rollback", "engine_commit", "engine_write_replay"]}, {"file": "monotone/engine/engine/engine.c", "symbols": ["engine_lock", "engine_unlock"]}, {"file": "monotone/engine/engine/op.c", "symbols": ["engine_drop", "engine_refresh", "engine_rebalance_next", "engine_checkpoint", "engine_service"]}, {"file": "monotone/engine/wal/wal.c", "symbols": ["wal_rotate", "wal_write", "wal_gc"]}, {"file": "monotone/engine/engine/refresh.c", "symbols": ["refresh_run"]}, {"file": "monotone/main/main/execute.c", "symbols": ["main_execute"]}]}
{"id": "C80", "title": "Settings of storages can be changed without losing data", "statement": "Whatever CREATE, ALTER and DROP do to storages and clouds: every partition file can be read, the environment can be opened again, and every file can be read then; every partition can be refreshed and moved to any storage. ALTER STORAGE SET changes the settings named in the command, of the storage named in it, and nothing else.", "quantifier": "For all texts of commands, all sessions of commands, new partitions, refreshes, moves, drops and restarts, and all failures of directories, clouds and the configuration file.", "why_tests_cant": "A key or path that is changed under a file makes the file unreadable; an environment that does not open is lost with all its data.", "anchors": [{"file": "monotone/engine/storage/storage_mgr.c", "symbols": ["storage_mgr_alter", "storage_mgr_create", "storage_mgr_drop", "storage_mgr_rename", "storage_set_cloud", "storage_mgr_open"]}, {"file": "monotone/cloud/cloud/source.h", "symbols": ["source_alter"]}, {"file": "monotone/cloud/cloud/cloud_mgr.c", "symbols": ["cloud_mgr_drop", "cloud_mgr_rename"]}, {"file": "monotone/main/command/parse_storage.c", "symbols": ["parse_storage_create", "parse_storage_alter"]}, {"file": "monotone/engine/engine/engine_recover.c", "symbols": ["engine_recover"]}]}
{"id": "C81", "title": "A writer waits for memory only while there is none, and not for ever", "statement": "With a memory limit that makes writers wait: a writer waits only while all memory up to the limit is in use; no call fails; and whatever has happened every call can still finish, if partitions are refreshed meanwhile. With one that makes calls fail, or without one, nobody waits.", "quantifier": "For all numbers of threads, all programs of batches, refreshes, drops and other calls that keep the order of C59 and have no batch above the limit, all settings, all schedules, spurious wake-ups included.", "why_tests_cant": "A writer that waits holds the locks of its partitions; if it waits for ever so does everybody who wants them.", "anchors": [{"file": "monotone/runtime/lib/memory_mgr.h", "symbols": ["memory_mgr_pop", "memory_mgr_push", "memory_mgr_reset"]}, {"file": "monotone/runtime/lib/heap.h", "symbols": ["heap_allocate", "heap_reset"]}, {"file": "monotone/engine/engine/write.c", "symbols": ["engine_write", "engine_commit", "engine_rollback"]}, {"file": "monotone/engine/engine/refresh.c", "symbols": ["refresh_run", "refresh_begin", "refresh_end"]}]}
{"id": "C82", "title": "A command on partitions does what its text says", "statement": "A DROP, MOVE, REFRESH, DOWNLOAD or UPLOAD of one or several partitions, as written, does to the partitions it names what it says and leaves the others alone; one that cannot be carried out is refused and changes nothing. Which lock it runs under is that of its kind.", "quantifier": "For all texts that are such commands, all storages with and without cloud, and all sound sets of partitions, written or not, on disk, on the cloud or both.", "why_tests_cant": "From the text of a command to what happens to data: a wrong entry in the table of commands, a wrong mask or a wrong step drops the wrong thing.", "anchors": [{"file": "monotone/main/main/execute.c", "symbols": ["main_execute", "execute_partition_drop", "execute_partition_move", "execute_partition_refresh", "execute_partition_download", "execute_partition_upload"]}, {"file": "monotone/engine/engine/op.c", "symbols": ["engine_drop", "engine_drop_file", "engine_download", "engine_upload", "engine_refresh", "engine_foreach"]}, {"file": "monotone/engine/engine/refresh.c", "symbols": ["refresh_begin", "refresh_run"]}]}
{"id": "C83", "title": "An environment opens again as commands left it", "statement": "A new environment starts. Whatever commands on clouds, storages, the pipeline and variables are given to it, from their text, and however often it is closed and opened in between, it can be opened from its configuration file, and then has the same clouds, storages, links between them, tiers and saved variables.", "quantifier": "For all sequences of command texts, accepted or refused, partitions appearing and disappearing, and restarts with any variables set before.", "why_tests_cant": "The configuration file is the only memory of clouds, storages and the pipeline: a command that is accepted and leaves a file that is refused makes the whole database unusable.", "anchors": [{"file": "monotone/main/main/execute.c", "symbols": ["execute_set", "execute_cloud_create", "execute_cloud_alter", "execute_storage_create", "execute_storage_alter", "execute_pipeline_alter"]}, {"file": "monotone/main/main/main.c", "symbols": ["main_start", "main_deploy"]}, {"file": "monotone/cloud/cloud/cloud_mgr.c", "symbols": ["cloud_mgr_save", "cloud_mgr_open", "cloud_mgr_alter", "cloud_mgr_rename"]}, {"file": "monotone/engine/storage/storage_mgr.c", "symbols": ["storage_mgr_save", "storage_mgr_open", "storage_mgr_create_main", "storage_mgr_rename_cloud"]}, {"file": "monotone/engine/storage/pipeline.c", "symbols": ["pipeline_save", "pipeline_open", "pipeline_alter", "pipeline_rename"]}, {"file": "monotone/runtime/config/config.c", "symbols": ["config_open", "config_save"]}]}
{"id": "C84", "title": "The database as a whole keeps the last version of every key", "statement": "From an empty directory, after any history of batches, batches that fail, commits, log rotations, log garbage collections, partition refreshes step by step, refreshes that fail, and crashes followed by a start from the bytes on disk, opening a cursor and reading to the end returns exactly the events of batches that did not fail that were the last written with their id and key and are not deletes, in order.", "quantifier": "For all histories of these steps in any order, all events, storage settings and codecs, crashes between any two steps, in the middle of a log record, or in the middle of a new partition file; batches that fail at any event or in the write to the log.", "why_tests_cant": "This is what the parts are for: a batch that was logged is read back, in its last version, whatever refreshes and restarts happened; parts that are right by themselves may still not fit together.", "anchors": [{"file": "monotone/engine/engine/write.c", "symbols": ["engine_write", "engine_write_replay", "engine_commit", "engine_rollback"]}, {"file": "monotone/engine/engine/refresh.c", "symbols": ["refresh_begin", "refresh_merge", "refresh_apply", "refresh_end"]}, {"file": "monotone/engine/engine/op.c", "symbols": ["engine_gc"]}, {"file": "monotone/engine/engine/engine_recover.c", "symbols": ["engine_recover", "engine_recover_validate"]}, {"file": "monotone/engine/wal/wal.c", "symbols": ["wal_write", "wal_rotate", "wal_gc", "wal_open"]}, {"file": "monotone/main/main/main.c", "symbols": ["main_start", "main_replay"]}, {"file": "monotone/engine/engine/engine_cursor.h", "symbols": ["engine_cursor_open", "engine_cursor_next"]}]}
{"id": "C85", "title": "The database as a whole, read from a key on", "statement": "From an empty directory, after any history of batches, batches that fail, commits, log rotations, log garbage collections, partition refreshes step by step, and crashes followed by a start from the bytes on disk, a cursor opened at a key and read to the end returns exactly the events at or after the key that were the last written with their id and key and are not deletes, in order.", "quantifier": "For all histories of these steps in any order, all events, keys, storage settings and codecs.", "why_tests_cant": "Applications read from a point in time on; what they miss there they take for not written.", "anchors": [{"file": "monotone/main/api/monotone.c", "symbols": ["monotone_cursor", "monotone_read", "monotone_next"]}, {"file": "monotone/engine/engine/engine_cursor.h", "symbols": ["engine_cursor_open", "engine_cursor_open_part", "engine_cursor_next"]}, {"file": "monotone/engine/io/part_cursor.h", "symbols": ["part_cursor_open"]}, {"file": "monotone/engine/io/part_iterator.h", "symbols": ["part_iterator_open"]}, {"file": "monotone/engine/index/index_iterator.h", "symbols": ["index_iterator_open"]}]}
{"id": "C86", "title": "Dropped partitions stay dropped, and take nothing else with them", "statement": "After any history of batches, log rotations, log garbage collections, refreshes step by step, drops of partitions and crashes followed by recovery and replay of the log, a reader sees of every partition what its batches left since it was last dropped, and nothing of a partition that was dropped and not written to again.", "quantifier": "For all histories of these steps in any order, all events and partition sizes.", "why_tests_cant": "Dropping is how old data is removed; data that comes back after a crash, or other data that goes with it, breaks retention and durability.", "anchors": [{"file": "monotone/engine/engine/op.c", "symbols": ["engine_drop", "engine_drop_file", "engine_drop_reference"]}, {"file": "monotone/main/main/main.c", "symbols": ["main_replay"]}, {"file": "monotone/engine/engine/write.c", "symbols": ["engine_write_replay"]}, {"file": "monotone/engine/wal/wal.c", "symbols": ["wal_rotate", "wal_gc", "wal_write_op"]}]}
{"id": "C87", "title": "The name of a storage does not tell its encryption key", "statement": "CREATE STORAGE with an encryption and no key makes a key of 32 letters and digits. The uuid of the storage, which is the name of its directory and of its objects in the cloud, and the random bytes in the clear at the beginning of everything encrypted, tell nothing of the key: with every name a storage can have every key, whether the key is made or given.", "quantifier": "For all states of the random numbers, all keys, all numbers drawn by other threads between the uuid and the key.", "why_tests_cant": "Data is encrypted before it is handed to a cloud, which sees the uuids and the encrypted files; if these tell the key, the encryption protects nothing.", "anchors": [{"file": "monotone/main/command/parse_storage.c", "symbols": ["parse_storage_create"]}, {"file": "monotone/runtime/lib/random.c", "symbols": ["random_generate", "random_xorshift128plus", "random_generate_alnum"]}, {"file": "monotone/runtime/lib/uuid.c", "symbols": ["uuid_generate"]}, {"file": "monotone/runtime/lib/encryption_aes.c", "symbols": ["encryption_aes_encrypt"]}]}
{"id": "C88", "title": "Changing events while reading them", "statement": "An application that reads all events with a cursor and, for each event it is on, writes another value for it, deletes it, or leaves it, gets every live event once and in order. The loop ends, and afterwards the partitions hold the events with these changes, no more and no less.", "quantifier": "For all partitions with any tables and files, all functions from events to changes.", "why_tests_cant": "Expiring or updating events in a loop over a cursor is what applications do with such a store; the cursor is attached to the table that the writes go to, which must neither skip nor repeat events.", "anchors": [{"file": "monotone/main/api/monotone.c", "symbols": ["monotone_read", "monotone_next", "monotone_write"]}, {"file": "monotone/engine/engine/engine_cursor.h", "symbols": ["engine_cursor_next", "engine_cursor_skip_deletes", "engine_cursor_at"]}, {"file": "monotone/engine/io/memtable.c", "symbols": ["memtable_set"]}, {"file": "monotone/engine/io/part_cursor.h", "symbols": ["part_cursor_open"]}]}
{"id": "C89", "title": "Texts show what they are given", "statement": "Every text that the program makes with a format string - messages, log lines, paths, the headers of S3 requests - shows all the values that the call gives, each of them in full, in their order, between words that do not depend on them. No call is undefined, whatever characters the names have.", "quantifier": "For all 283 calls with a format in the source, all values of the arguments' types.", "why_tests_cant": "The C compiler does not check these formats (none of the functions has the format attribute); a wrong one gives a message about something else, or reads memory that is not there.", "anchors": [{"file": "monotone/runtime/runtime/throw.h", "symbols": ["error_throw", "error", "log"]}, {"file": "monotone/cloud/s3/s3_request.c", "symbols": ["s3_request_execute", "s3_request_prepare", "s3_request_debug_cb"]}, {"file": "monotone/cloud/cloud/source.h", "symbols": ["source_pathfmt"]}, {"file": "monotone/runtime/runtime/buf.h", "symbols": ["buf_printf", "buf_vprintf"]}, {"file": "monotone/main/main/execute.c", "symbols": ["main_execute"]}]}
{"id": "C90", "title": "A connection of a cloud serves one request at a time", "statement": "Connections (libcurl handles) of an S3 cloud are kept between requests. However requests of several threads interleave, and whichever of them fail, a connection is used by one request at a time, is never used or freed after it was freed, and is in the cache exactly when no request has it. A connection whose request failed is closed, not used again. There are never more connections than threads, and when the cloud is freed all of them are closed.", "quantifier": "For all interleavings of any number of threads, all failures of requests, of allocations and of what follows a request.", "why_tests_cant": "libcurl handles must not be shared by threads; a handle in two hands corrupts memory, one that is lost leaks a socket.", "anchors": [{"file": "monotone/runtime/lib/cache.h", "symbols": ["cache_pop", "cache_push"]}, {"file": "monotone/cloud/s3/s3.c", "symbols": ["s3_get_io", "s3_free", "s3_download", "s3_upload", "s3_remove", "s3_read", "s3_attach", "s3_detach"]}, {"file": "monotone/cloud/s3/s3_io.c", "symbols": ["s3_io_allocate", "s3_io_free"]}]}
{"id": "C91", "title": "A scan reads each region of a file once, one at a time", "statement": "Partition files are read in regions. However far a cursor has been moved, the regions it has read are in the order of the partitions and of their files, so none was read twice. Opening a cursor reads at most one region and moving it to the next event at most one more; no region is read before the cursor needs an event of it. With a key, no region is read whose ids are all below the key. A cursor without a key that has come to the end has read every region.", "quantifier": "For all partitions and contents built by commands, all keys and any number of moves.", "why_tests_cant": "Regions are read from disk or from the cloud and decompressed; ARCHITECTURE promises that the storage never has to do more than one read at a time.", "anchors": [{"file": "monotone/engine/io/part_iterator.h", "symbols": ["part_iterator_open", "part_iterator_open_region", "part_iterator_next"]}, {"file": "monotone/engine/io/index_iterator.h", "symbols": ["index_iterator_open", "index_iterator_next"]}, {"file": "monotone/engine/io/reader.h", "symbols": ["reader_execute"]}, {"file": "monotone/engine/io/part_cursor.h", "symbols": ["part_cursor_open"]}, {"file": "monotone/engine/engine/engine_cursor.h", "symbols": ["engine_cursor_open", "engine_cursor_next"]}]}
{"id": "C92", "title": "Calls tell what happened, and handles last until they are freed", "statement": "Every call of the library that fails says so by its answer, -1 or NULL, and no other does; until the next call of the same thread, monotone_error then gives the error that ended the call (its first 255 bytes) and an empty text after a call that did not fail, whatever other threads call meanwhile. A handle can be used until it is freed; handles that are in use are distinct; when all are freed, no memory of a handle is left. An application that only uses handles it holds never meets undefined behaviour.", "quantifier": "For all sequences of calls, any number of environments, cursors and threads, and any errors and lack of memory inside the calls.", "why_tests_cant": "This is all an application sees of the library; it decides by it if its data was stored.", "anchors": [{"file": "monotone/main/api/monotone.c", "symbols": ["monotone_init", "monotone_free", "monotone_error", "monotone_open", "monotone_execute", "monotone_write", "monotone_cursor", "monotone_read", "monotone_next"]}, {"file": "monotone/runtime/runtime/runtime.c", "symbols": ["runtime_init"]}, {"file": "monotone/runtime/runtime/error.h", "symbols": ["error_throw_as"]}, {"file": "monotone/runtime/runtime/exception.h", "symbols": ["exception_mgr_throw", "exception_mgr_leave"]}, {"file": "monotone/engine/engine/op.c", "symbols": ["engine_service"]}]}
{"id": "C93", "title": "Every file that is opened is closed once", "statement": "Every descriptor that an environment opens - the lock of the directory, the log file, the log of writes, the partitions, the files a merge writes, directories and files read inside a function - is closed exactly once: none is closed that is not open, no two holders have the same one, and after monotone_free none is open. While the environment is in use there are no more open than three, one for each partition and one for each worker.", "quantifier": "For all sequences of open, create, download, upload, drop, refresh, rotation and free, and all ways in which the calls inside them fail.", "why_tests_cant": "An environment runs for long and retries what failed; descriptors that are lost add up until no file can be opened any more, and one that is closed twice may be somebody else's file.", "anchors": [{"file": "monotone/runtime/runtime/file.h", "symbols": ["file_init", "file_open_as", "file_close", "file_lock", "file_import"]}, {"file": "monotone/engine/io/part.c", "symbols": ["part_open", "part_create", "part_download", "part_upload", "part_offload", "part_free"]}, {"file": "monotone/engine/io/merger.c", "symbols": ["merger_reset", "merger_execute"]}, {"file": "monotone/engine/engine/refresh.c", "symbols": ["refresh_reset", "refresh_apply", "refresh_end"]}, {"file": "monotone/engine/wal/wal.c", "symbols": ["wal_rotate", "wal_open", "wal_free"]}, {"file": "monotone/engine/wal/wal_cursor.c", "symbols": ["wal_cursor_next", "wal_cursor_close"]}, {"file": "monotone/engine/engine/engine_recover.c", "symbols": ["engine_recover"]}, {"file": "monotone/engine/engine/engine.c", "symbols": ["engine_close"]}, {"file": "monotone/main/main/main.c", "symbols": ["main_start", "main_stop", "main_free"]}]}
{"id": "C94", "title": "A refresh reads each region of the old file once", "statement": "A refresh that merges a memory table with the file of its partition and comes to its end has read every region of that file exactly once, in the order of the file. The first region is read when the merge is opened and at most one more with each event written or dropped; no region is read before all events of the one before it are used. Without a file nothing is read.", "quantifier": "For all tables, partition files, codecs and fuel.", "why_tests_cant": "A refresh reads the old file from disk or cloud and decompresses and decrypts it; ARCHITECTURE says refreshing is designed to reduce write amplification, and one sequential pass with one region in memory is what keeps its cost bounded.", "anchors": [{"file": "monotone/engine/io/merger.c", "symbols": ["merger_execute", "merger_write"]}, {"file": "monotone/engine/io/part_iterator.h", "symbols": ["part_iterator_open", "part_iterator_open_region", "part_iterator_next"]}, {"file": "monotone/engine/io/index_iterator.h", "symbols": ["index_iterator_next"]}, {"file": "monotone/engine/io/merge_iterator.h", "symbols": ["merge_iterator_next"]}, {"file": "monotone/engine/io/reader.h", "symbols": ["reader_execute"]}]}
{"id": "C95", "title": "What was put into a cloud is found there", "statement": "However clouds and storages are created, altered, renamed and dropped by commands, and partitions created, refreshed, moved, uploaded, removed from the cloud and dropped: every partition that counts as being in a cloud is found at the address where it is looked for, with the content it had when it was uploaded, unless its removal was asked for. Its storage has a cloud that exists. An upload or removal touches no object of another partition. The same holds after the environment is opened again.", "quantifier": "For all sessions of commands as texts, partition operations and lost answers of the cloud, and whatever the clouds contained before.", "why_tests_cant": "The address is made of settings that commands can change; if one changes, the only copy of a partition may be out of reach.", "anchors": [{"file": "monotone/cloud/cloud/cloud_mgr.c", "symbols": ["cloud_mgr_alter", "cloud_mgr_rename", "cloud_mgr_drop"]}, {"file": "monotone/cloud/cloud/cloud_config.h", "symbols": ["cloud_config_alter"]}, {"file": "monotone/engine/storage/storage_mgr.c", "symbols": ["storage_mgr_alter", "storage_mgr_rename_cloud", "storage_set_cloud"]}, {"file": "monotone/cloud/cloud/mock.c", "symbols": ["mock_path"]}, {"file": "monotone/engine/engine/op.c", "symbols": ["engine_upload", "engine_drop_file"]}, {"file": "monotone/engine/engine/refresh.c", "symbols": ["refresh_begin"]}]}
{"id": "C96", "title": "The test cloud gives back what was uploaded", "statement": "A partition that is uploaded to a cloud of the type mock, dropped locally and downloaded again has exactly the file it had when it was uploaded, whatever happened to it before: refreshes, uploads that stopped before, while or after the file was written, removals from the cloud, downloads, and removals cut short by the end of the process. Until then, reads of a region in the cloud return the bytes of the uploaded file, and nothing but the removal changes the file there.", "quantifier": "For all histories of a partition and all files, with uploads that stop after any number of bytes.", "why_tests_cant": "The local copy is dropped because the copy in the cloud is trusted to be the same.", "anchors": [{"file": "monotone/cloud/cloud/mock.c", "symbols": ["mock_upload", "mock_download", "mock_read", "mock_remove"]}, {"file": "monotone/runtime/runtime/file.h", "symbols": ["file_create"]}, {"file": "monotone/engine/io/part.c", "symbols": ["part_upload", "part_download", "part_offload"]}, {"file": "monotone/engine/engine/op.c", "symbols": ["engine_upload", "engine_download", "engine_drop_file"]}]}
