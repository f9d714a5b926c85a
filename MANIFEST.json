{
 "claims": [
  {
   "property": "C01",
   "status": "partial",
   "theorems": [
    "Verif.C01.C01_spec_is_total_order",
    "Verif.C01.C01_event_order_partial",
    "Verif.C01.C01_compare_partial",
    "Verif.C01.C01_event_order_false",
    "Verif.C01.C01_ids_2_32_apart_compare_equal",
    "Verif.C01.C01_compare_wraps",
    "Verif.C01.C01_partition_compare_overflows"
   ],
   "note": "False of the code for ids 2^31 or more apart (witnesses proved). Proved for ids below 2^63 and less than 2^31 apart, for every conforming memcmp."
  },
  {
   "property": "C02",
   "status": "proved",
   "theorems": [
    "Verif.C02.C02_index_sorted_and_balanced"
   ],
   "note": "All of rbtree.c (set, remove, min, max, next, prev, search) for any lawful comparison."
  },
  {
   "property": "C03",
   "status": "partial",
   "theorems": [
    "Verif.C03.C03_partition_lookup_partial",
    "Verif.C03.C03_partition_lookup_false",
    "Verif.C03.C03_cursor_lookup_misses",
    "Verif.C03.C03_add_aborts",
    "Verif.C03.C03_add_overflows"
   ],
   "note": "False of the code for partitions 2^31 or more apart (witnesses proved). Proved for any history with neighbours less than 2^31 apart and ids below 2^63."
  },
  {
   "property": "C04",
   "status": "partial",
   "theorems": [
    "Verif.C04.C04_no_overlap_partial",
    "Verif.C04.C04_no_overlap_window_partial",
    "Verif.C04.C04_no_overlap_false",
    "Verif.C04.C04_create_overlaps",
    "Verif.C04.C04_partition_lost"
   ],
   "note": "False of the code (CREATE next to a partition ending at 2^64-1; partitions 2^31 apart with default settings). Proved for any sequence of creates, writes and drops of ids below 2^63 and less than 2^31 from neighbouring partitions."
  },
  {
   "property": "C05",
   "status": "partial",
   "theorems": [
    "Verif.C05.C05_fill_partial",
    "Verif.C05.C05_fill_first_partial",
    "Verif.C05.C05_fill_false"
   ],
   "note": "False next to a partition that ends at 2^64-1. Proved below 2^63 within 2^31 of neighbours."
  },
  {
   "property": "C06",
   "status": "partial",
   "theorems": [
    "Verif.C06.C06_write_finds_partition_partial",
    "Verif.C06.C06_write_finds_partition_false",
    "Verif.C06.C06_largest_id_fails",
    "Verif.C06.C06_existing_partition_missed"
   ],
   "note": "False for ids near 2^64 and for partitions 2^31 apart. Proved below 2^63 within 2^31 of neighbours."
  },
  {
   "property": "C07",
   "status": "partial",
   "theorems": [
    "Verif.C07.C07_sorted_map_partial",
    "Verif.C07.C07_sorted_map_false",
    "Verif.C07.C07_write_out_of_order",
    "Verif.C07.C07_update_duplicates"
   ],
   "note": "False of the code (witness with the real page sizes 512/508). Proved for any write sequence on one page or landing among the last sizePage-sizeSplit keys, across page splits."
  },
  {
   "property": "C08",
   "status": "partial",
   "theorems": [
    "Verif.C08.C08_seek_partial",
    "Verif.C08.C08_seek_false",
    "Verif.C08.C08_seek_skips",
    "Verif.C08.C08_seek_page_end"
   ],
   "note": "False of the code for tables of several pages (witnesses). Proved for one page or requests among the last sizePage-sizeSplit keys."
  },
  {
   "property": "C09",
   "status": "partial",
   "theorems": [
    "Verif.C09.C09_atomic_partial",
    "Verif.C09.C09_last_wins",
    "Verif.C09.C09_others",
    "Verif.C09.C09_false_first_key",
    "Verif.C09.C09_false_event",
    "Verif.C09.C09_false_first_page",
    "Verif.C09.C09_false_split",
    "Verif.C09.C09_false"
   ],
   "note": "Proved for every history of failing and succeeding batches over any partitions, if a batch does not fail before its first log record, no event allocation and no first page allocation fails, and each event is the largest of its partition or the partition fits one page. Full statement false in each case: an oversized key in the first event makes the rollback read before a NULL buffer, a failed event allocation makes it remove the event NULL, a failed first page allocation hits an assertion, and after a page split earlier events of the batch stay in the table."
  },
  {
   "property": "C10",
   "status": "partial",
   "theorems": [
    "Verif.C10.C10_reads_partial",
    "Verif.C10.C10_deleted_partial",
    "Verif.C10.C10_failed_refresh_false"
   ],
   "note": "Proved for all histories of batches, refreshes at any stage, rotations, garbage collections and restarts in which no refresh fails; false after a failed refresh (the next one puts the older memory table in front)."
  },
  {
   "property": "C11",
   "status": "partial",
   "theorems": [
    "Verif.C11.C11_scan_partial",
    "Verif.C11.C11_scan_restarts",
    "Verif.C11.C11_scan_false",
    "Verif.C11.C11_open_hangs"
   ],
   "note": "Proved for every history of partitions, tables and files within the limits of C03, C07 and C15 (ranges below 2^63 and less than 2^31 apart, tables of one page or growing at the end): the scan ends and returns each live event once, in order. Full statement false: with a partition that reaches the end of the id space the scan starts over and never ends, and opening a cursor on it while empty hangs."
  },
  {
   "property": "C12",
   "status": "partial",
   "theorems": [
    "Verif.C12.C12_seek_partial",
    "Verif.C12.C12_seek_false"
   ],
   "note": "Proved within the limits of C11, with a start key within the limits of C08 for the tables of the partition where the cursor starts, and not between the last event of its id and a later event of the same file. Full statement false: with a start key after the last event of a file region the rest of the file is skipped."
  },
  {
   "property": "C13",
   "status": "partial",
   "theorems": [
    "Verif.C13.C13_merge_partial",
    "Verif.C13.C13_merge_unique",
    "Verif.C13.C13_merge_false"
   ],
   "note": "False for ids 2^63 or more apart (comparison wraps). Proved for any number of sorted sources with ids in a window of 2^63."
  },
  {
   "property": "C14",
   "status": "partial",
   "theorems": [
    "Verif.C14.C14_new_file_partial",
    "Verif.C14.C14_steps_partial",
    "Verif.C14.C14_failed_refresh_false"
   ],
   "note": "Contents of the new file proved for sorted sources in one id window; every step of a refresh leaves reads unchanged unless an earlier refresh failed, then it is false."
  },
  {
   "property": "C15",
   "status": "partial",
   "theorems": [
    "Verif.C15.C15_round_trip_partial",
    "Verif.C15.C15_round_trip_without_keys",
    "Verif.C15.C15_needs_memory_after_the_event",
    "Verif.C15.C15_growing_data_is_lost",
    "Verif.C15.C15_round_trip_false"
   ],
   "note": "Byte level: writer, index footer, open, region reads and the file iterator. False in two ways: event_size counts the key twice, so writing a keyed event reads past its memory; zstd output that does not shrink is cut off and the file cannot be opened. Proved for every sequence, region size, codec and encryption outside these two."
  },
  {
   "property": "C16",
   "status": "partial",
   "theorems": [
    "Verif.C16.C16_rules_partial",
    "Verif.C16.C16_rules_false"
   ],
   "note": "Proved for region size limits below 2^32; false above because the limit is compared in 32 bits."
  },
  {
   "property": "C17",
   "status": "partial",
   "theorems": [
    "Verif.C17.C17_lookup_partial",
    "Verif.C17.C17_first_event",
    "Verif.C17.C17_region_skipped",
    "Verif.C17.C17_far_above",
    "Verif.C17.C17_other_half",
    "Verif.C17.C17_lookup_false"
   ],
   "note": "False when the found region's largest id is 2^31 or more above the request (the region is skipped), when the request is more than 2^31 above the last id, and across 2^63 (signed overflow). Proved otherwise for any number of regions, with the consequence for the first event at or after the request."
  },
  {
   "property": "C18",
   "status": "partial",
   "theorems": [
    "Verif.C18.C18_footer_partial",
    "Verif.C18.C18_burst_in_empty_file",
    "Verif.C18.C18_cut_accepted",
    "Verif.C18.C18_footer_false"
   ],
   "note": "Byte level, all codecs. False in two corners: a burst across the two checksums of a file without events passes (what is read is unchanged), and a cut right after an event value that is itself a valid header passes. Everything else proved: bursts anywhere in index data and header, wrong lengths, exact condition for cuts."
  },
  {
   "property": "C19",
   "status": "partial",
   "theorems": [
    "Verif.C19.C19_damage_partial",
    "Verif.C19.C19_altered_value_returned",
    "Verif.C19.C19_damage_reads_outside",
    "Verif.C19.C19_detection_false"
   ],
   "note": "False: the recorded region checksum is never compared. A changed value byte is returned and a changed offset makes the reader leave its buffer. Without compression exactly damage to the first eight bytes is detected."
  },
  {
   "property": "C20",
   "status": "partial",
   "theorems": [
    "Verif.C20.C20_record_partial",
    "Verif.C20.C20_without_keys",
    "Verif.C20.C20_without_checksums",
    "Verif.C20.C20_one_event",
    "Verif.C20.C20_drop",
    "Verif.C20.C20_two_keys_rejected",
    "Verif.C20.C20_end_of_page",
    "Verif.C20.C20_record_false"
   ],
   "note": "Holds when the bytes behind each event in memory are the same at sealing and at writing (always without keys or with wal_crc off); false with wal_crc on for batches with two keyed events of one table, because event_size counts the key twice and the checksum covers bytes that change."
  },
  {
   "property": "C21",
   "status": "partial",
   "theorems": [
    "Verif.C21.C21_increase_partial",
    "Verif.C21.C21_files_partial",
    "Verif.C21.C21_dropped_false"
   ],
   "note": "Proved for histories without drops; false with them: replaying a drop does not advance the number, so it is given out again. C21_files_partial says the same of the bytes of the log files, through writes, rotations, garbage collection and restarts, with the limits of C23: the numbers read back increase, and none is above the next number."
  },
  {
   "property": "C22",
   "status": "partial",
   "theorems": [
    "Verif.C22.C22_read_partial",
    "Verif.C22.C22_replay",
    "Verif.C22.C22_below_first_false",
    "Verif.C22.C22_long_file"
   ],
   "note": "Holds for start numbers 0 or at or after the first file and files of at most 3 GiB; false below the first file (nothing is returned) and for files near 4 GiB."
  },
  {
   "property": "C23",
   "status": "partial",
   "theorems": [
    "Verif.C23.C23_recovered",
    "Verif.C23.C23_later_partial",
    "Verif.C23.C23_rotated",
    "Verif.C23.C23_cannot_reopen",
    "Verif.C23.C23_reads_outside",
    "Verif.C23.C23_later_false"
   ],
   "note": "Recovery of all earlier records proved for every cut position. False for records logged after that restart: they go behind the torn bytes, and the next restart fails (with checksums) or reads outside the record. Proved when nothing of the record reached the file, or when the log is rotated first."
  },
  {
   "property": "C24",
   "status": "partial",
   "theorems": [
    "Verif.C24.C24_files",
    "Verif.C24.C24_frees",
    "Verif.C24.C24_needed_partial",
    "Verif.C24.C24_in_refresh_false"
   ],
   "note": "File level proved in full (only files below the oldest needed number go, newest stays). Database level proved outside two windows; false when garbage collection runs between refresh_apply and the deletion of the old file."
  },
  {
   "property": "C25",
   "status": "partial",
   "theorems": [
    "Verif.C25.C25_survives_partial",
    "Verif.C25.C25_reads_partial",
    "Verif.C25.C25_gc_in_refresh_false",
    "Verif.C25.C25_gc_in_batch_false",
    "Verif.C25.C25_failed_refresh_false"
   ],
   "note": "Proved for all histories and crash points outside three cases; false in each of them: log garbage collection inside a refresh, log garbage collection inside a batch, refresh after a failed refresh."
  },
  {
   "property": "C26",
   "status": "partial",
   "theorems": [
    "Verif.C26.C26_restarts_partial",
    "Verif.C26.C26_dropped",
    "Verif.C26.C26_dropped_false",
    "Verif.C26.C26_dropped_rotated"
   ],
   "note": "Proved for any number of restarts without drops; false with drops: replay logs the drop again behind newer batches and the second restart loses them."
  },
  {
   "property": "C27",
   "status": "partial",
   "theorems": [
    "Verif.C27.C27_partial",
    "Verif.C27.C27_version",
    "Verif.C27.C27_false_upload",
    "Verif.C27.C27_false_merge",
    "Verif.C27.C27_false_move",
    "Verif.C27.C27_false_leftover",
    "Verif.C27.C27_false_unlink",
    "Verif.C27.C27_false_closed",
    "Verif.C27.C27_false"
   ],
   "note": "All histories of create, refresh, move, upload, download and drop, each complete or cut off at any step, with restarts cut off at any step: the old or the new version, complete. False after operations that fail without a crash: their leftovers can keep the database from opening, or bring back the old version."
  },
  {
   "property": "C28",
   "status": "partial",
   "theorems": [
    "Verif.C28.C28_name_round_trip",
    "Verif.C28.C28_names_distinct",
    "Verif.C28.C28_names_partial",
    "Verif.C28.C28_foreign_name_accepted",
    "Verif.C28.C28_number_wraps",
    "Verif.C28.C28_names_false"
   ],
   "note": "Round trip and distinctness hold for every id. Rejection of foreign names is false (short numbers, numbers above 2^64 wrap)."
  },
  {
   "property": "C29",
   "status": "partial",
   "theorems": [
    "Verif.C29.C29_running_partial",
    "Verif.C29.C29_fresh_partial",
    "Verif.C29.C29_partial",
    "Verif.C29.C29_false_explicit",
    "Verif.C29.C29_false_empty",
    "Verif.C29.C29_false_refused",
    "Verif.C29.C29_false_reuse",
    "Verif.C29.C29_false"
   ],
   "note": "Full statement false: an explicit id above the serial number is later overwritten (config_ssn_follow is never called); if the last partition holds no event (all deleted and refreshed, or created by a refused batch) the serial number restarts at 0 and events are overwritten; ids of dropped events are given again after a restart. Proved: ids increase while the process runs; with explicit ids below the serial number and a last partition that holds an event after every restart no stored event is overwritten, deletes, drops and failures included; without deletes, drops and failures the full statement."
  },
  {
   "property": "C30",
   "status": "partial",
   "theorems": [
    "Verif.C30.C30_cursor_partial",
    "Verif.C30.C30_next_larger",
    "Verif.C30.C30_false_before",
    "Verif.C30.C30_false_update",
    "Verif.C30.C30_false_update_end",
    "Verif.C30.C30_false_split",
    "Verif.C30.C30_false"
   ],
   "note": "Proved for a cursor over the in-memory table, opened at its start, under writes within the limits of C07 that do not go directly before the cursor, do not replace an earlier event of its page, and do not split its page while the cursor is on the part that stays. Full statement false for each of these: an insert directly before the cursor makes it return an event twice, an update of an earlier event of the page moves it on (at the end of the page it reads an unset slot), an append that splits the page moves it on."
  },
  {
   "property": "C31",
   "status": "partial",
   "theorems": [
    "Verif.C31.C31_locks_partial",
    "Verif.C31.C31_no_lost_wakeup",
    "Verif.C31.C31_two_holders",
    "Verif.C31.C31_locks_false"
   ],
   "note": "False when one thread takes the same partition lock twice (a batch of two events): two other threads then hold it together. Proved without nesting for any number of threads and any schedule; no wake-up is ever lost, with nesting too."
  },
  {
   "property": "C32",
   "status": "partial",
   "theorems": [
    "Verif.C32.C32_writers_partial",
    "Verif.C32.C32_single_partition",
    "Verif.C32.C32_writers_false"
   ],
   "note": "False for batches that visit two partitions in opposite orders. Proved for any number of writers whose batches visit partitions in ascending order, repeats allowed."
  },
  {
   "property": "C33",
   "status": "partial",
   "theorems": [
    "Verif.C33.C33_requests_partial",
    "Verif.C33.C33_at_most_once",
    "Verif.C33.C33_fetch_first",
    "Verif.C33.C33_lost_after_failure",
    "Verif.C33.C33_requests_false"
   ],
   "note": "False when an action fails: the remaining actions of that request are dropped. Proved for histories without failing actions; never executed twice in any history."
  },
  {
   "property": "C34",
   "status": "partial",
   "theorems": [
    "Verif.C34.C34_round_trip_partial",
    "Verif.C34.C34_real_exact_iff",
    "Verif.C34.C34_round_trip_false",
    "Verif.C34.C34_tenth"
   ],
   "note": "False for doubles in float range that need more than float precision: data_write_real rounds them. Every other value, nesting and length proved, including data_skip and the exact condition under which a real survives."
  },
  {
   "property": "C35",
   "status": "partial",
   "theorems": [
    "Verif.C35.C35_restores_partial",
    "Verif.C35.C35_json_partial",
    "Verif.C35.C35_string_iff",
    "Verif.C35.C35_false_string",
    "Verif.C35.C35_false_int",
    "Verif.C35.C35_false_real",
    "Verif.C35.C35_false"
   ],
   "note": "Proved for tables of any values without unescaped quotes, integers near the ends of 64 bits, and reals; false for those: no escaping in the export, overflow in the number parser, 32-byte buffer for reals."
  },
  {
   "property": "C36",
   "status": "partial",
   "theorems": [
    "Verif.C36.C36_crash_partial",
    "Verif.C36.C36_never_half",
    "Verif.C36.C36_copy_kept",
    "Verif.C36.C36_completes",
    "Verif.C36.C36_false"
   ],
   "note": "Proved at crash points before the rename and after the last write; in between the old text is kept as the copy but not found again (false); a half-written file is never taken for a configuration."
  },
  {
   "property": "C37",
   "status": "partial",
   "theorems": [
    "Verif.C37.C37_refused",
    "Verif.C37.C37_obeys",
    "Verif.C37.C37_fails_clean_partial",
    "Verif.C37.C37_false"
   ],
   "note": "All the rules proved for every variable, flag, phase and value; a failing SET changes nothing except when saving the file fails, where the new value stays (false)."
  },
  {
   "property": "C38",
   "status": "partial",
   "theorems": [
    "Verif.C38.C38_counters",
    "Verif.C38.C38_partitions",
    "Verif.C38.C38_show",
    "Verif.C38.C38_partial",
    "Verif.C38.C38_false"
   ],
   "note": "After any history the counters are the sums plus the files dropped from partitions (C38_counters), so exact without such drops; partition counts and SHOW always exact. False in full: engine_drop_file clears the state before storage_remove_metrics, which then does nothing."
  },
  {
   "property": "C39",
   "status": "partial",
   "theorems": [
    "Verif.C39.C39_next_partial",
    "Verif.C39.C39_within_partial",
    "Verif.C39.C39_stops_partial",
    "Verif.C39.C39_false_stale",
    "Verif.C39.C39_false_drops_all",
    "Verif.C39.C39_false_endless",
    "Verif.C39.C39_false_clock"
   ],
   "note": "Right choice with right counters when no partition is marked or the last tier is within limits; within-limit tiers left alone; ends within limits for pipelines that only move. False: stale target name after a marked partition, a last tier over its size limit is emptied, a pipeline a,b,a never ends."
  },
  {
   "property": "C40",
   "status": "partial",
   "theorems": [
    "Verif.C40.C40_partial",
    "Verif.C40.C40_rename_storage_partial",
    "Verif.C40.C40_rename_cloud_partial",
    "Verif.C40.C40_false_alter",
    "Verif.C40.C40_false_rename",
    "Verif.C40.C40_false"
   ],
   "note": "All histories of commands, partition operations and restarts, failing saves included, in which ALTER STORAGE does not fail to set a cloud and a pipeline does not name a storage twice. Both exceptions are shown to leave a configuration that cannot be loaded. Giving a storage another cloud while files are in the old one is refused, too."
  },
  {
   "property": "C41",
   "status": "partial",
   "theorems": [
    "Verif.C41.C41_errors_partial",
    "Verif.C41.C41_crashes_partial",
    "Verif.C41.C41_false_drop",
    "Verif.C41.C41_false_refresh",
    "Verif.C41.C41_false_closed",
    "Verif.C41.C41_false_answer",
    "Verif.C41.C41_false_restart",
    "Verif.C41.C41_false",
    "Verif.C41.C41_automatic",
    "Verif.C41.C41_uploaded"
   ],
   "note": "Any sequence of operations with errors at any step of uploads and downloads and before the point of no return of refreshes and drops, or with crashes at any step, when a copy is dropped only if there is another. False otherwise: DROP ... ON STORAGE of the only copy, failures after that point, a lost answer of the cloud. C41_automatic and C41_uploaded, without conditions: cloud_drop_local leaves a partition as it was or in the cloud, and an upload leaves it as it was or with both copies."
  },
  {
   "property": "C42",
   "status": "partial",
   "theorems": [
    "Verif.C42.C42_range_visits_partial",
    "Verif.C42.C42_range_drops_partial",
    "Verif.C42.C42_range_false",
    "Verif.C42.C42_start_inside_partition",
    "Verif.C42.C42_never_ends",
    "Verif.C42.C42_drops_below"
   ],
   "note": "False when the range starts inside a partition and when a partition ends at 2^64-1. Proved otherwise."
  },
  {
   "property": "C43",
   "status": "partial",
   "theorems": [
    "Verif.C43.C43_accounting_partial",
    "Verif.C43.C43_limit_whole_pages",
    "Verif.C43.C43_total_off_by_failures",
    "Verif.C43.C43_failed_map",
    "Verif.C43.C43_limit_exceeded",
    "Verif.C43.C43_accounting_false"
   ],
   "note": "False when mmap fails (the page count stays too high) and for a limit that is not a whole number of pages (exceeded by up to one page). Counts proved exact otherwise, at the level of the linked page lists."
  },
  {
   "property": "C44",
   "status": "partial",
   "theorems": [
    "Verif.C44.C44_no_overlap_partial",
    "Verif.C44.C44_large_record_null",
    "Verif.C44.C44_huge_record_overruns",
    "Verif.C44.C44_no_overlap_false"
   ],
   "note": "False for records larger than a page: event_allocate writes through NULL, or outside the page from 2^31 bytes on. No overlap proved for every history of requests below 2^31 bytes."
  },
  {
   "property": "C45",
   "status": "partial",
   "theorems": [
    "Verif.C45.C45_uuid_text_partial",
    "Verif.C45.C45_round_trip",
    "Verif.C45.C45_text_identifies",
    "Verif.C45.C45_uuid_text_false"
   ],
   "note": "Round trip and rejection proved for texts up to 36 characters; longer texts with a valid prefix are accepted by the code."
  },
  {
   "property": "C46",
   "status": "partial",
   "theorems": [
    "Verif.C46.C46_codec_partial",
    "Verif.C46.C46_exclusive",
    "Verif.C46.C46_lz4_served_as_zstd",
    "Verif.C46.C46_codec_false"
   ],
   "note": "False: a returned lz4 context is handed out as zstd. Proved for histories that obtain no zstd context after an lz4 one; that no context is with two users at once is proved for every history."
  },
  {
   "property": "C47",
   "status": "partial",
   "theorems": [
    "Verif.C47.C47_units_partial",
    "Verif.C47.C47_units_modulo",
    "Verif.C47.C47_min_not_recognised",
    "Verif.C47.C47_month_year_wrong",
    "Verif.C47.C47_product_wraps",
    "Verif.C47.C47_units_false"
   ],
   "note": "False for min, month(s), year(s) and for products of 2^64 or more. Proved for every other unit word, any case and white space."
  },
  {
   "property": "C48",
   "status": "proved",
   "theorems": [
    "Verif.C48.C48_decoding",
    "Verif.C48.C48_source_checks",
    "Verif.C48.C48_cloud_checks",
    "Verif.C48.C48_tier_checks",
    "Verif.C48.C48_source_round_trip",
    "Verif.C48.C48_cloud_round_trip",
    "Verif.C48.C48_tier_round_trip"
   ],
   "note": "Every stored map for storages, clouds and tiers: accepted exactly when every field is present with its type, unknown keys reported, and what write produces reads back."
  },
  {
   "property": "C49",
   "status": "partial",
   "theorems": [
    "Verif.C49.C49_event",
    "Verif.C49.C49_exact_partial",
    "Verif.C49.C49_failed_refresh_false"
   ],
   "note": "Decision for one event proved in full; for whole histories proved unless a refresh failed, then it is false (an unsaved batch is skipped)."
  },
  {
   "property": "C50",
   "status": "proved",
   "theorems": [
    "Verif.C50.C50_cleanups",
    "Verif.C50.C50_error"
   ],
   "note": "Every nesting of blocks, catch points, rethrowing handlers and cancelled cleanups; cleanup functions themselves do not throw."
  },
  {
   "property": "C51",
   "status": "partial",
   "theorems": [
    "Verif.C51.C51_queued_partial",
    "Verif.C51.C51_once_partial",
    "Verif.C51.C51_size_partial",
    "Verif.C51.C51_false_failure",
    "Verif.C51.C51_false_command",
    "Verif.C51.C51_false_drop",
    "Verif.C51.C51_false_watermark",
    "Verif.C51.C51_false_size",
    "Verif.C51.C51_false"
   ],
   "note": "Proved for every history of writes, refused writes, checkpoints, requests, rebalances, commands, drops and restarts: with a watermark below 2^32 a batch over it is scheduled unless a background refresh failed since the last successful one; and nothing is scheduled twice unless a command refreshes the partition or it is dropped meanwhile; what is compared is what was written since the last refresh began unless one failed. Full statement false: after one failed refresh the flag stays set for ever; REFRESH or DROP while a request waits leads to a second request; a watermark of 2^32 is stored as 0."
  },
  {
   "property": "C52",
   "status": "partial",
   "theorems": [
    "Verif.C52.C52_checkpoint_partial",
    "Verif.C52.C52_failed_refresh_false"
   ],
   "note": "Proved after every safe history with nothing under way; false after a failed refresh (the older memory table is not saved)."
  },
  {
   "property": "C53",
   "status": "partial",
   "theorems": [
    "Verif.C53.C53_tokens_safe_partial",
    "Verif.C53.C53_backlog_partial",
    "Verif.C53.C53_five_integers",
    "Verif.C53.C53_four_integers",
    "Verif.C53.C53_negative_char",
    "Verif.C53.C53_tokens_false"
   ],
   "note": "False for four integers in a row (five overflow on the first read) and for bytes of 128 or more outside strings and comments. Proved for all other texts, of any length, and any parser."
  },
  {
   "property": "C54",
   "status": "proved",
   "theorems": [
    "Verif.C54.C54_one_checksum",
    "Verif.C54.C54_same_everywhere",
    "Verif.C54.C54_bursts_change_it"
   ],
   "note": "Instruction and table versions equal bit by bit polynomial division for all bytes, start values, addresses and pieces; every burst of up to 32 bits changes the checksum."
  },
  {
   "property": "C55",
   "status": "partial",
   "theorems": [
    "Verif.C55.C55_exact",
    "Verif.C55.C55_prefix",
    "Verif.C55.C55_until_restart",
    "Verif.C55.C55_reads_partial",
    "Verif.C55.C55_false_deleted_returns",
    "Verif.C55.C55_false_lost",
    "Verif.C55.C55_false"
   ],
   "note": "Exact condition proved: the file is what was written if and only if no refresh that failed since the last success or start wrote more bytes; it is then read back within the limits of C15. False otherwise: file_create does not truncate, so the end of a longer leftover stays; after a restart the file cannot be opened, or the index of the old file is used and deleted events return."
  },
  {
   "property": "C56",
   "status": "partial",
   "theorems": [
    "Verif.C56.C56_write_partial",
    "Verif.C56.C56_read_partial",
    "Verif.C56.C56_writev",
    "Verif.C56.C56_file_write_partial",
    "Verif.C56.C56_file_writev_partial",
    "Verif.C56.C56_false_empty",
    "Verif.C56.C56_false_torn",
    "Verif.C56.C56_false"
   ],
   "note": "All loops proved for every sequence of answers, vfs_writev without exception. False in two corners: reading or writing zero bytes reports an error, and after a write that failed half way the recorded size is not that of the file, so that the next write goes behind torn bytes. The recorded size is proved right as long as no write failed."
  },
  {
   "property": "C57",
   "status": "partial",
   "theorems": [
    "Verif.C57.C57_signature_partial",
    "Verif.C57.C57_request_partial",
    "Verif.C57.C57_paths_distinct",
    "Verif.C57.C57_false_overflow",
    "Verif.C57.C57_false_address",
    "Verif.C57.C57_false"
   ],
   "note": "False of the code: every request writes 29 bytes into an array of 28. With one more byte the encoder is proved equal to RFC 4648 for every digest, and the request right for a login of at most 222 and an url of at most 965 characters; longer ones are cut silently, up to one address for all objects. The paths of different objects are proved different."
  },
  {
   "property": "C58",
   "status": "partial",
   "theorems": [
    "Verif.C58.C58_code",
    "Verif.C58.C58_one_reading",
    "Verif.C58.C58_one_command",
    "Verif.C58.C58_refused",
    "Verif.C58.C58_partial",
    "Verif.C58.C58_safe_partial",
    "Verif.C58.C58_empty_refused",
    "Verif.C58.C58_nocomma_taken",
    "Verif.C58.C58_negative",
    "Verif.C58.C58_grammar_false",
    "Verif.C58.C58_false"
   ],
   "note": "Proved without conditions for the grammar as it is in the code: accepted exactly if the text says the command, and each text has one reading. Against the grammar of the comments it is proved for all commands but those on storages and the pipeline with numbers of 2^63 or more, which become negative, and pipelines with an empty list of tier options, which the code refuses (or takes without a comma). Freedom from failed asserts and undefined behaviour needs a text without four integers in a row and without bytes of 128 or more outside strings and comments, as in C53."
  },
  {
   "property": "C59",
   "status": "partial",
   "theorems": [
    "Verif.C59.C59_upwards_partial",
    "Verif.C59.C59_single_partial",
    "Verif.C59.C59_cursor_change",
    "Verif.C59.C59_cursor_refresh",
    "Verif.C59.C59_readers_false",
    "Verif.C59.C59_writers_first",
    "Verif.C59.C59_writers_first_show",
    "Verif.C59.C59_false"
   ],
   "note": "Proved for threads that visit partitions upwards and change nothing while they have a cursor open. False otherwise: a thread with an open cursor that runs SET, CHECKPOINT, DROP PARTITION or any other exclusive command waits for itself; a thread with a cursor that refreshes its partition and the worker wait for each other. With a reader-writer lock that puts writers first (POSIX leaves it open) a batch of two events, or SHOW STORAGES, and a SET deadlock. The engine mutex and the locks inside the log and the queue are not modelled; they are not held while another lock is taken."
  },
  {
   "property": "C60",
   "status": "partial",
   "theorems": [
    "Verif.C60.C60_before_partial",
    "Verif.C60.C60_torn",
    "Verif.C60.C60_sync_returns",
    "Verif.C60.C60_later_lost",
    "Verif.C60.C60_later_outside",
    "Verif.C60.C60_number_twice",
    "Verif.C60.C60_rotated_over",
    "Verif.C60.C60_false"
   ],
   "note": "Proved for any mixture of operations when writes fail before their first byte, and for a torn write directly followed by a restart. False otherwise: a batch whose sync failed is always back after a restart, and shares its number with the next one; a write that fails half way makes the next acknowledged one unreadable, so that the database does not open (with checksums) or the restart reads outside a record (without). Missing beyond that: drop records among the successful writes (see C21)."
  },
  {
   "property": "C61",
   "status": "partial",
   "theorems": [
    "Verif.C61.C61_exclusive",
    "Verif.C61.C61_kept_out",
    "Verif.C61.C61_once_partial",
    "Verif.C61.C61_retry",
    "Verif.C61.C61_twice",
    "Verif.C61.C61_two_directories",
    "Verif.C61.C61_false"
   ],
   "note": "The first half (never two at a time) is proved for every history; the second for histories that open each handle at most once. False otherwise: a second monotone_open on a handle, also after a failed first one, is refused as in use by another process, loses the descriptor with the lock, and from then on nobody can open the directory until the process ends; opening an open handle on another directory is not refused. Descriptors inherited by fork are not modelled."
  },
  {
   "property": "C62",
   "status": "partial",
   "theorems": [
    "Verif.C62.C62_upload",
    "Verif.C62.C62_upload_succeeds",
    "Verif.C62.C62_download",
    "Verif.C62.C62_download_succeeds",
    "Verif.C62.C62_round_trip",
    "Verif.C62.C62_read_partial",
    "Verif.C62.C62_range",
    "Verif.C62.C62_range_zero",
    "Verif.C62.C62_ignored",
    "Verif.C62.C62_false"
   ],
   "note": "Uploads and downloads are proved for every way of being cut into pieces and of failing; reading a region for servers that support ranges. False for servers that ignore the Range header, which HTTP permits: the whole object is taken for the region, and neither the status nor the number of bytes is checked. libcurl and the server are modelled by what they do (the server stores nothing of an incomplete body), not verified."
  },
  {
   "property": "C63",
   "status": "partial",
   "theorems": [
    "Verif.C63.C63_show_partial",
    "Verif.C63.C63_passwords_shown",
    "Verif.C63.C63_keys_shown",
    "Verif.C63.C63_false"
   ],
   "note": "Proved for every SHOW but that of the variables `clouds` and `storages` by name. False for these two: `SHOW CONFIG clouds` answers with every password and `SHOW CONFIG storages` with every encryption key (proved for every database), because the variables are only hidden (VAR_H), not secret (VAR_S). The answer is taken from one state; locks are the subject of C59."
  },
  {
   "property": "C64",
   "status": "partial",
   "theorems": [
    "Verif.C64.C64_partial",
    "Verif.C64.C64_false",
    "Verif.C64.C64_signed"
   ],
   "note": "Proved for every SHOW command and consistent state when the document has no string with a quote, backslash or control character and no number of 2^63 or more, and for SHOW PARTITION when ids are below 2^63 and near a partition (as in C03). False in general: strings are written without escapes, so SHOW DIRECTORY of a directory with a quote in its name is not JSON; a partition that ends at 2^64 - 1 is shown as ending at -1. The texts of real numbers (never part of these documents but for data in configuration) are not looked at, nor is UTF-8. The answer is taken from one state; locks are the subject of C59."
  },
  {
   "property": "C65",
   "status": "partial",
   "theorems": [
    "Verif.C65.C65_partial",
    "Verif.C65.C65_reported_partial",
    "Verif.C65.C65_overflow",
    "Verif.C65.C65_show",
    "Verif.C65.C65_printf",
    "Verif.C65.C65_false"
   ],
   "note": "Proved for messages that fit (errors of up to 993 bytes). False for longer ones: `len` is advanced by the size the text would have, so the end of line is stored past the end of the 1024 bytes on the stack (proved for every longer message), for instance by SHOW with an unknown name of 973 bytes. The text that a format gives is a parameter; messages of 2^31 bytes and more are left out."
  },
  {
   "property": "C66",
   "status": "proved",
   "theorems": [
    "Verif.C66.C66_full",
    "Verif.C66.C66_pop_empty",
    "Verif.C66.C66_unsafe"
   ],
   "note": "Proved. Also proved: `list_pop` on an empty list gives the head itself (both callers ask first), and the loop that is not the safe one may not free the element it is at."
  },
  {
   "property": "C67",
   "status": "partial",
   "theorems": [
    "Verif.C67.C67_partial",
    "Verif.C67.C67_overflow",
    "Verif.C67.C67_pieces",
    "Verif.C67.C67_false"
   ],
   "note": "Proved for buffers of up to 2^30 bytes and vectors of fewer than 2^26 pieces and 2^31 bytes. False above: a full buffer of 2^30 bytes or more cannot grow, since twice its capacity overflows `int`, and the size of a vector overflows with 2^31 bytes (both proved in general). memcpy of no bytes from or to NULL is taken as harmless."
  },
  {
   "property": "C68",
   "status": "proved",
   "theorems": [
    "Verif.C68.C68_full",
    "Verif.C68.C68_zero",
    "Verif.C68.C68_zero_opens",
    "Verif.C68.C68_over"
   ],
   "note": "Proved for every seed but zero, which `random_open` can give; with it the loop never ends (`C68_zero`). Asked for no bytes or for more than the array has, it writes past the end (`C68_over`); the one caller asks for 32. `isalnum` is that of the C locale. The numbers are not secret in a cryptographic sense; nothing is claimed of that."
  },
  {
   "property": "C69",
   "status": "partial",
   "theorems": [
    "Verif.C69.C69_partial",
    "Verif.C69.C69_malloc",
    "Verif.C69.C69_thread",
    "Verif.C69.C69_twice",
    "Verif.C69.C69_false"
   ],
   "note": "Proved for histories in which the workers are started at most once, and all of them; before that any number of openings may fail. False otherwise: if memory for the workers or a thread could not be had, monotone_open fails and monotone_free then uses NULL or joins a thread that does not exist; after a second monotone_open with another directory the first workers are not waited for. That an action itself ends is assumed (C39 and C59 have cases where it does not)."
  },
  {
   "property": "C70",
   "status": "partial",
   "theorems": [
    "Verif.C70.C70_partial",
    "Verif.C70.C70_shared",
    "Verif.C70.C70_main",
    "Verif.C70.C70_cut",
    "Verif.C70.C70_config",
    "Verif.C70.C70_false"
   ],
   "note": "Proved when no two storages are given the same uuid and all paths fit into PATH_MAX. False otherwise: CREATE STORAGE takes a uuid that is already in use, even that of main, and both storages then have the same files; with very long directory names the paths are cut off and files coincide. Paths are compared as texts: symbolic links are outside the model."
  },
  {
   "property": "C71",
   "status": "partial",
   "theorems": [
    "Verif.C71.C71_partial",
    "Verif.C71.C71_single",
    "Verif.C71.C71_own",
    "Verif.C71.C71_update",
    "Verif.C71.C71_batch",
    "Verif.C71.C71_false"
   ],
   "note": "Proved for all schedules in which no thread takes a lock that it already has, and from that for programs with one cursor at a time, nothing else while it is open, and single events. False otherwise, because partition locks are recursive and a nested one is lost at the first release: a thread that refreshes the partition its own cursor is in, a thread that writes to the partition of its cursor while a worker refreshes it, and a batch of two events in one partition during a refresh all use freed memory. Accesses within one step are not interleaved: races on single fields are outside the model."
  },
  {
   "property": "C72",
   "status": "partial",
   "theorems": [
    "Verif.C72.C72_partial",
    "Verif.C72.C72_writes",
    "Verif.C72.C72_batch",
    "Verif.C72.C72_drop",
    "Verif.C72.C72_false"
   ],
   "note": "Proved for all schedules if the events of every batch are in different partitions and nobody else touches a partition that a thread drops. False otherwise: a batch with two events in one partition gives up another thread's lock at its second release, and the records of two writers get into the log in the other order than their events into memory; and a drop is logged after the control lock is released, so a write that comes in between is logged before it and lost at the next start. A failed wal_write leaves no record here (C60 is about those that do)."
  },
  {
   "property": "C73",
   "status": "partial",
   "theorems": [
    "Verif.C73.C73_partial",
    "Verif.C73.C73_unsaved",
    "Verif.C73.C73_file",
    "Verif.C73.C73_false_save",
    "Verif.C73.C73_false_alter",
    "Verif.C73.C73_false"
   ],
   "note": "Proved for the histories of C40 and commands whose save succeeds and that do not set a cloud which cannot be used. When the save fails the command has been done in memory and only the file is old; any error leaves the file as it was. False: a CREATE CLOUD that reports an error because the file cannot be written is saved by the next command; an ALTER STORAGE to a missing cloud is refused after the old cloud has been given up."
  },
  {
   "property": "C74",
   "status": "partial",
   "theorems": [
    "Verif.C74.C74_partial",
    "Verif.C74.C74_single",
    "Verif.C74.C74_quiet",
    "Verif.C74.C74_show_state",
    "Verif.C74.C74_show_index",
    "Verif.C74.C74_show_download",
    "Verif.C74.C74_show_write",
    "Verif.C74.C74_show_rollback",
    "Verif.C74.C74_cursor_download",
    "Verif.C74.C74_rebalance",
    "Verif.C74.C74_nested",
    "Verif.C74.C74_false"
   ],
   "note": "Proved, when no thread takes a lock it already has: the only races are seven named pairs of functions, each on one part of a partition; without SHOW, downloads and rebalancing there is none. False in general: each of the seven races has a witness, and with a lock taken twice a cursor reads a memtable that another thread writes."
  },
  {
   "property": "C75",
   "status": "partial",
   "theorems": [
    "Verif.C75.C75_partial",
    "Verif.C75.C75_works",
    "Verif.C75.C75_restart_keeps",
    "Verif.C75.C75_descriptors",
    "Verif.C75.C75_failed_transfer",
    "Verif.C75.C75_download_checked",
    "Verif.C75.C75_damaged_download",
    "Verif.C75.C75_damaged_download_reads",
    "Verif.C75.C75_failed_drop",
    "Verif.C75.C75_lost_answer",
    "Verif.C75.C75_refused_drop",
    "Verif.C75.C75_two_downloads",
    "Verif.C75.C75_uploaded",
    "Verif.C75.C75_false"
   ],
   "note": "Proved for histories in which downloads deliver the object, the local copy is dropped without failing and only while cloud file and object exist, and no restart comes between two failed downloads of a kind. False in general: a damaged download spoils the index in memory, a failed drop closes the file, a failed drop in the cloud leaves the state saying there is a copy, two failed downloads keep the database from opening."
  },
  {
   "property": "C76",
   "status": "partial",
   "theorems": [
    "Verif.C76.C76_balanced_partial",
    "Verif.C76.C76_same_partial",
    "Verif.C76.C76_refused_partial",
    "Verif.C76.C76_end_false",
    "Verif.C76.C76_key_false",
    "Verif.C76.C76_false"
   ],
   "note": "Proved for texts without four integers in a row (C53), with closed strings, known characters and no fractions, and without empty strings; and for texts refused inside their command. False in general: a token that cannot be read after a complete command leaves the command behind, and an empty encryption key is not freed when a key is made."
  },
  {
   "property": "C77",
   "status": "partial",
   "theorems": [
    "Verif.C77.C77_back_partial",
    "Verif.C77.C77_index_partial",
    "Verif.C77.C77_pack",
    "Verif.C77.C77_tamper_partial",
    "Verif.C77.C77_refuses_partial",
    "Verif.C77.C77_ends_partial",
    "Verif.C77.C77_encr",
    "Verif.C77.C77_short_false",
    "Verif.C77.C77_negative_false",
    "Verif.C77.C77_endless_false",
    "Verif.C77.C77_stale_false",
    "Verif.C77.C77_leftover_false",
    "Verif.C77.C77_zstd_false",
    "Verif.C77.C77_level_false",
    "Verif.C77.C77_false"
   ],
   "note": "Reading back is proved for everything but zstd frames longer than their input. Refusing is proved for encrypted data with a wrong tag and for all data without compression that has the size the index says; the lz4 loop ends unless the buffer is full. False in general: encrypted data below 32 bytes is read out of bounds, lz4 data with more content than expected is read forever, and lz4 or zstd data with less content gives a region ending with what was in memory. The encryption assumed in `Model/Region.lean` is shown to be what the code does."
  },
  {
   "property": "C78",
   "status": "partial",
   "theorems": [
    "Verif.C78.C78_ends",
    "Verif.C78.C78_given_back",
    "Verif.C78.C78_nothing",
    "Verif.C78.C78_end",
    "Verif.C78.C78_order_partial",
    "Verif.C78.C78_all_partial",
    "Verif.C78.C78_skip_false",
    "Verif.C78.C78_partition_false",
    "Verif.C78.C78_old_false",
    "Verif.C78.C78_false"
   ],
   "note": "That everything is given back once, that loops end, and that a cursor at its end holds only memory is proved for all failures. All live events are got if no call fails; events read after calls that succeed are always live and in order. False: a call that failed and is repeated passes over a region, or over the file of a partition, in silence, and a read after a failed call may give an event out of order or a version that was replaced."
  },
  {
   "property": "C79",
   "status": "partial",
   "theorems": [
    "Verif.C79.C79_given_back_partial",
    "Verif.C79.C79_full_partial",
    "Verif.C79.C79_session_partial",
    "Verif.C79.C79_rotate_false",
    "Verif.C79.C79_rebalance_false",
    "Verif.C79.C79_commit_false",
    "Verif.C79.C79_empty_false",
    "Verif.C79.C79_false"
   ],
   "note": "Proved for every call and every failing step but three, and short of the crashes of a rollback known from C09. False: wal_rotate keeps the lock of the log if its list of files cannot grow, engine_rebalance_next the mutex of the engine if a name cannot be copied, engine_commit the locks of the batch if a refresh request cannot be allocated; a batch without events whose log write fails is rolled back in front of NULL."
  },
  {
   "property": "C80",
   "status": "partial",
   "theorems": [
    "Verif.C80.C80_unnamed",
    "Verif.C80.C80_named_partial",
    "Verif.C80.C80_readable_partial",
    "Verif.C80.C80_writable_partial",
    "Verif.C80.C80_create_writable",
    "Verif.C80.C80_keyless_false",
    "Verif.C80.C80_unsaved_key_false",
    "Verif.C80.C80_unsaved_path_false",
    "Verif.C80.C80_cloud_false",
    "Verif.C80.C80_attach_false",
    "Verif.C80.C80_uuid_false",
    "Verif.C80.C80_cut_false",
    "Verif.C80.C80_false"
   ],
   "note": "That ALTER leaves alone what it does not name is proved without conditions; what it names it sets, for numbers within 32 bits. Data stays readable if new storages have new uuids, ALTER names a cloud that can be attached, and partitions are written only while the configuration file is up to date; each of these is needed. Storages stay writable if ALTER leaves no encryption without a key."
  },
  {
   "property": "C81",
   "status": "partial",
   "theorems": [
    "Verif.C81.C81_enough_partial",
    "Verif.C81.C81_failure_partial",
    "Verif.C81.C81_need_partial",
    "Verif.C81.C81_helps_partial",
    "Verif.C81.C81_no_cache_false",
    "Verif.C81.C81_cache_false",
    "Verif.C81.C81_gc_false",
    "Verif.C81.C81_stuck",
    "Verif.C81.C81_false"
   ],
   "note": "The full property is false: a writer waits while it holds the lock of the partition that has the memory. Nobody hangs if all that is asked for fits, if there is no limit, or if calls fail instead; threads wait only while they have to if the cache is as big as the limit and DEBUG MEMORY_GC is not used; the refresh of a partition that nobody has locked ends the waiting. Missing: partitions locked by others who will unlock them."
  },
  {
   "property": "C82",
   "status": "partial",
   "theorems": [
    "Verif.C82.C82_partial",
    "Verif.C82.C82_refused_partial",
    "Verif.C82.C82_keeps_partial",
    "Verif.C82.C82_safe_partial",
    "Verif.C82.C82_locks",
    "Verif.C82.C82_move_refused",
    "Verif.C82.C82_half_way",
    "Verif.C82.C82_stay_refused",
    "Verif.C82.C82_inside",
    "Verif.C82.C82_drops_others",
    "Verif.C82.C82_endless",
    "Verif.C82.C82_false"
   ],
   "note": "The full property is false: a range ending at the last id starts over, a refused MOVE has already removed the copy on the cloud, refused commands on several partitions stop half way. Proved without these; no command but DROP loses events, and unless a partition ends at the last id every command returns. Missing: CREATE PARTITION (C04), other threads, failing files and clouds."
  },
  {
   "property": "C83",
   "status": "partial",
   "theorems": [
    "Verif.C83.C83_opens_partial",
    "Verif.C83.C83_false_login",
    "Verif.C83.C83_false_string",
    "Verif.C83.C83_false_number",
    "Verif.C83.C83_false_cloud",
    "Verif.C83.C83_false_rename",
    "Verif.C83.C83_false"
   ],
   "note": "The full property is false: ALTER CLOUD may leave an s3 cloud without login, password or url, strings with quotes and numbers near 2^63 are not read back, ALTER STORAGE keeps the name of a missing cloud, and renaming a storage that is in the pipeline twice leaves a tier without storage; none of these opens again. Proved for all other commands. Missing: failing writes of the file (C36, C73), opening of partitions (C26)."
  },
  {
   "property": "C84",
   "status": "partial",
   "theorems": [
    "Verif.C84.C84_whole_partial",
    "Verif.C84.C84_plain_partial",
    "Verif.C84.C84_whole_false",
    "Verif.C84.C84_torn_false",
    "Verif.C84.C84_rotate_false",
    "Verif.C84.C84_fault_false",
    "Verif.C84.C84_empty_false",
    "Verif.C84.C84_retry_false"
   ],
   "note": "The full property is false: log garbage collection between refresh_apply and the renames of refresh_end removes the log of events that only the file without its final name has, and a crash loses them; a batch behind a torn record makes the next start fail, and so can the rotation of a log file whose first record is torn; a batch whose record is complete when its sync fails comes back with the next start; undoing a batch without events is undefined; a refresh after one that failed lets older events hide newer ones. Proved for all histories in which garbage collection does not fall there, nor between wal_write and engine_commit, and in which after a crash inside a record the log is rotated before the next batch, with a whole record in it; batches that fail at any event or with their record incomplete leave no trace, if their tables stay in one page, and refreshes may fail while they merge, if their partition is not refreshed again before the next start. Missing: failing batches in larger tables (C09), ids from 2^31 on (C03), memory tables that are written out of order after 512 versions (C07), files beyond the limits of the format (C15); drops, the cloud."
  },
  {
   "property": "C85",
   "status": "partial",
   "theorems": [
    "Verif.C85.C85_from_partial",
    "Verif.C85.C85_id_partial",
    "Verif.C85.C85_key_false",
    "Verif.C85.C85_from_false"
   ],
   "note": "The full property is false: with the ids 3 and 8 in different regions of a file and a new event of the id 3 in memory, a cursor opened at this event returns it and ends; 8 is skipped. Proved for keys that are at or before all events of their id (as an id with an empty key), or whose id is the last of its partition. Missing: other keys, seeks in tables of more than one page that are not at the end (C08), and what is missing in C84."
  },
  {
   "property": "C86",
   "status": "partial",
   "theorems": [
    "Verif.C86.C86_drops_partial",
    "Verif.C86.C86_sample",
    "Verif.C86.C86_rewritten_false",
    "Verif.C86.C86_renumbered",
    "Verif.C86.C86_renumbered_false",
    "Verif.C86.C86_same_number"
   ],
   "note": "The full property is false: a partition written to again after a drop loses the batch after two restarts; and when everything was dropped and the log cleaned, a restart begins the numbers again, the next log file is sorted before the current one, and the older version of a key wins after the next restart. Proved for partitions never dropped and for those dropped after their last batch, for histories in which restarts do not make the numbers go back. Missing: partitions written to again after a drop, failing refreshes, garbage collection in the windows of C25, rotations that meet the number of the current file."
  },
  {
   "property": "C87",
   "status": "partial",
   "theorems": [
    "Verif.C87.C87_chosen_partial",
    "Verif.C87.C87_search",
    "Verif.C87.C87_few",
    "Verif.C87.C87_narrow_false",
    "Verif.C87.C87_false",
    "Verif.C87.C87_file"
   ],
   "note": "False of keys that are made: uuid and key come one after the other from xorshift128+, and with the uuid at most 2^26 keys of 62^32 are possible, which a short formula lists (`C87_search`, `C87_few`). The 16 random bytes at the beginning of anything encrypted tell the same of keys made before (`C87_file`) if it is known how many numbers were drawn since. Proved for keys given in the command."
  },
  {
   "property": "C88",
   "status": "partial",
   "theorems": [
    "Verif.C88.C88_exact_partial",
    "Verif.C88.C88_sweep_partial",
    "Verif.C88.C88_delete_partial",
    "Verif.C88.C88_false",
    "Verif.C88.C88_again",
    "Verif.C88.C88_twice",
    "Verif.C88.C88_counted",
    "Verif.C88.C88_read_again"
   ],
   "note": "False of updates: an event that is in the file or in the table rotated by a refresh, and that has a later event in the table that takes the writes, is always read a second time after it was changed (`C88_again`; `C88_counted`: a loop that adds one adds two). Proved for deletes and for all other updates, while the table that takes the writes stays on one page; there `C88_exact_partial` says for all changes what is read and written. Missing: tables of more than one page (C07). After a delete monotone_read returns 0, as at the end, if the event was in that table, and the deleted event otherwise (`C88_read_again`)."
  },
  {
   "property": "C89",
   "status": "partial",
   "theorems": [
    "Verif.C89.C89_partial",
    "Verif.C89.C89_false",
    "Verif.C89.C89_wrong",
    "Verif.C89.C89_status",
    "Verif.C89.C89_debug",
    "Verif.C89.C89_plain"
   ],
   "note": "False of four calls (`C89_wrong`): the error of an S3 request that failed shows the length of the cloud's name as the HTTP status and the name as the reason (`C89_status`); the debug log of libcurl passes a size_t for an int (`C89_debug`); the digits of a signature are read behind their array (C57); the counts of a log record of 2^31 and more are shown as int. Proved for the other 279."
  },
  {
   "property": "C90",
   "status": "proved",
   "theorems": [
    "Verif.C90.C90_full",
    "Verif.C90.C90_few",
    "Verif.C90.C90_failed"
   ],
   "note": "For any number of threads and any order of steps."
  },
  {
   "property": "C91",
   "status": "partial",
   "theorems": [
    "Verif.C91.C91_partial",
    "Verif.C91.C91_false",
    "Verif.C91.C91_two",
    "Verif.C91.C91_same"
   ],
   "note": "Proved within the limits of C11 for partitions and of C17 for the key, for any content: order, none twice, at most one region per move, none ahead, none before the key, all at the end. Opening with a key may read two regions (C91_two). C91_false: in a partition that reaches the end of the id space the cursor starts again and reads all regions again."
  },
  {
   "property": "C92",
   "status": "partial",
   "theorems": [
    "Verif.C92.C92_safe_partial",
    "Verif.C92.C92_clean",
    "Verif.C92.C92_tells_partial",
    "Verif.C92.C92_threw",
    "Verif.C92.C92_no_cursor",
    "Verif.C92.C92_no_environment",
    "Verif.C92.C92_service",
    "Verif.C92.C92_order",
    "Verif.C92.C92_twice",
    "Verif.C92.C92_tells_false",
    "Verif.C92.C92_false"
   ],
   "note": "Distinctness and freeing are proved in full. Safety is proved when cursors are freed before their environment; C92_order: otherwise freeing the cursor is undefined. Answers and reasons are proved for calls that got memory for their handle and caught no error inside. C92_no_cursor, C92_no_environment: without memory, NULL comes with no text, or with that of an earlier call. C92_service: the command SERVICE returns 0 although its work failed. C92_twice: the test for a freed handle never finds one, it reads memory that is not allocated."
  },
  {
   "property": "C93",
   "status": "partial",
   "theorems": [
    "Verif.C93.C93_closed_once",
    "Verif.C93.C93_bound_partial",
    "Verif.C93.C93_closed_partial",
    "Verif.C93.C93_held_partial",
    "Verif.C93.C93_open_partial",
    "Verif.C93.C93_all_false",
    "Verif.C93.C93_bound_reached",
    "Verif.C93.C93_again_false"
   ],
   "note": "That none is closed twice and that holders do not share one is proved for all histories. That all are closed at the end is false (C93_all_false): a refresh that fails at its first rename, a download of a damaged file that is repeated, a rotation that fails at the sync, and a failing open each lose one. Proved instead, for handles that are opened once: each such failure loses at most one and nothing else does; without such failures all are closed, and each open one has a holder that lasts. C93_bound_reached: with failing rotations any number is lost. C93_again_false: a second monotone_open after one that failed is refused by the lock of the first, which stays after monotone_free."
  },
  {
   "property": "C94",
   "status": "partial",
   "theorems": [
    "Verif.C94.C94_partial",
    "Verif.C94.C94_once",
    "Verif.C94.C94_ends_partial",
    "Verif.C94.C94_same"
   ],
   "note": "C94_once holds for any file, damaged or not: in order, none twice, by the entries of the index. C94_partial adds all regions, one per step, none ahead, for files within the limits of C15 (below 4 GiB, codecs within their limits) and every table. C94_ends_partial: such a refresh comes to its end within the limits of C07 and C14. Files beyond the limits of C15 are open."
  },
  {
   "property": "C95",
   "status": "partial",
   "theorems": [
    "Verif.C95.C95_partial",
    "Verif.C95.C95_restart",
    "Verif.C95.C95_url_false",
    "Verif.C95.C95_false"
   ],
   "note": "Proved for sessions in which ALTER CLOUD does not name the url of a cloud that has partitions; that is accepted, and the partitions are not found any more (C95_url_false). C95_restart: an environment that opens as it was (C83) finds everything where it was."
  },
  {
   "property": "C96",
   "status": "partial",
   "theorems": [
    "Verif.C96.C96_exact",
    "Verif.C96.C96_prefix",
    "Verif.C96.C96_kept",
    "Verif.C96.C96_read",
    "Verif.C96.C96_undisturbed_partial",
    "Verif.C96.C96_grows_partial",
    "Verif.C96.C96_reads_partial",
    "Verif.C96.C96_false_deleted_returns",
    "Verif.C96.C96_false_lost",
    "Verif.C96.C96_false"
   ],
   "note": "C96_exact says when it holds: the file left in the mock directory is not longer than the one uploaded. So it holds if nothing was disturbed (C96_undisturbed_partial) or files never get shorter (C96_grows_partial); then the events are read from the downloaded file (C96_reads_partial). Otherwise a deleted event is back after download and restart (C96_false_deleted_returns), or the downloaded file cannot be opened (C96_false_lost). Reads from the cloud are right in any case (C96_read, C96_kept)."
  }
 ]
}