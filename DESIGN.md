# Design

Source under study: `/repo` (monotone, an embedded event store in C), read as
text.  Nothing is built or executed.  The list of claims is
`properties.jsonl`; the status of each claim is `MANIFEST.json`.

## Layout

* `lean/Verif/Model/*.lean`: the model, function by function.  Every
  definition cites the file and lines it models.
* `lean/Verif/Spec/*.lean`: small independent specifications (sorted maps,
  byte encodings, layouts) that do not use the model.
* `lean/Verif/Proofs/*.lean`: helper lemmas.
* `lean/Verif/Props/*.lean`: the theorems named in `MANIFEST.json`, each with
  an `example` that instantiates its hypotheses.

## Modelling conventions

* `Res α` has four outcomes: `ok`, `err` (the code threw with `error(...)`),
  `abort` (an `assert` fails; the Debug build keeps asserts, the Release build
  defines NDEBUG and runs on), `ub` (undefined behaviour: NULL dereference,
  signed overflow, out of bounds access).
* `uint64_t` values are `Nat` with explicit reduction mod 2^64 wherever the C
  code computes; conversions to `int64_t`/`int` use `wrapS64`/`wrapS32`.
* A pointer to a tree node is a zipper (subtree plus ancestors), because C
  nodes have parent pointers.  A pointer that must survive rebalancing is a
  unique identity looked up again with `Rb.locate`.
* `memcmp` is an arbitrary function that meets the C standard (only the sign
  of its result is fixed).
* Page sizes (512/508 in the code) are parameters of the memtable model.
* Files are byte lists; a crash is a prefix of the sequence of file system
  steps, plus, for the log, a cut inside the last append.
* Threads are interleavings of atomic steps, a step being a critical section.

## Trusted base

* The Lean 4.33.0 kernel and the axioms `propext`, `Classical.choice`,
  `Quot.sound`.  No axioms of our own, no `sorry`, no `native_decide`, no
  `bv_decide`.
* The reading of the C code by hand: each model definition is a hand
  translation of the cited lines.
* Not modelled: the C compiler, the kernel and file system below
  read/write/rename/unlink/fsync (assumed to do what POSIX says), zstd/lz4 and
  AES (used only through the axiom-free assumption, stated as a hypothesis,
  that decompress after compress is the identity), pthread (mutex and
  condition variable semantics are assumed), the S3 client, the command line
  tool and the benchmark, logging.

## Properties

For each property: what is modelled, how it is proved, and the result (the
status recorded in `MANIFEST.json`).  Names of theorems are in `MANIFEST.json`;
`Props/Cxx.lean` also holds an `example` that meets the hypotheses.

### C01. Event order is the lexicographic order on (id, key)

*Model.* `compare_u64`, `compare`, `memtable_compare`,
`region_iterator_compare` with their C integer types (`Model/Event.lean`).
*Proof.* Sign of the comparison against the order on (id, key); the order is
shown total. Witnesses by computation.
*Result (partial).* False of the code for ids 2^31 or more apart (witnesses
proved). Proved for ids below 2^63 and less than 2^31 apart, for every
conforming memcmp.

### C02. Ordered index stays sorted and balanced

*Model.* `rbtree.c` completely, a node pointer being a zipper
(`Model/Rbtree.lean`).
*Proof.* In-order sequence and red-black invariant preserved by every
operation, by induction on paths and trees.
*Result (proved).* All of rbtree.c (set, remove, min, max, next, prev, search)
for any lawful comparison.

### C03. A partition lookup returns the partition that covers the id

*Model.* `mapping_find/seek/gte/match/add/remove` over the tree model
(`Model/Mapping.lean`).
*Proof.* Refinement to a sorted list of disjoint ranges, by induction over the
history.
*Result (partial).* False of the code for partitions 2^31 or more apart
(witnesses proved). Proved for any history with neighbours less than 2^31
apart and ids below 2^63.

### C04. Partitions never overlap

*Model.* `engine_lock`, `engine_fill_nolock`, `engine_drop*` on the mapping
(`Model/Ranges.lean`).
*Proof.* Invariant (disjoint, covering, ordered) by induction over commands.
*Result (partial).* False of the code (CREATE next to a partition ending at
2^64-1; partitions 2^31 apart with default settings). Proved for any sequence
of creates, writes and drops of ids below 2^63 and less than 2^31 from
neighbouring partitions.

### C05. Creating a range covers exactly the missing ids

*Model.* `engine_fill_nolock`, CREATE PARTITIONS (`Model/Ranges.lean`).
*Proof.* Comparison with interval arithmetic.
*Result (partial).* False next to a partition that ends at 2^64-1. Proved
below 2^63 within 2^31 of neighbours.

### C06. A write is accepted for every id

*Model.* `engine_lock`, `config_interval_of` (`Model/Ranges.lean`).
*Proof.* Decision logic over the mapping refinement.
*Result (partial).* False for ids near 2^64 and for partitions 2^31 apart.
Proved below 2^63 within 2^31 of neighbours.

### C07. In-memory table behaves as a sorted map

*Model.* `memtable.c`: pages, binary search, splits (`Model/Memtable.lean`).
*Proof.* Invariant linking pages to an ascending list; every write is the list
operation `put`.
*Result (partial).* False of the code (witness with the real page sizes
512/508). Proved for any write sequence on one page or landing among the last
sizePage-sizeSplit keys, across page splits.

### C08. In-memory seek positions at the first key >= the request

*Model.* `memtable_seek`, `memtable_iterator_open` (`Model/Memtable.lean`).
*Proof.* Same invariant; a seek is `atOrAfter` of the list.
*Result (partial).* False of the code for tables of several pages (witnesses).
Proved for one page or requests among the last sizePage-sizeSplit keys.

### C09. Batch writes are atomic in memory

*Model.* `engine_write`, `engine_rollback`, `engine_commit` with the log of
operations and a failure at every allocation (`Model/Batch.lean`).
*Proof.* The log is related to the contents it undoes; induction over the
batch, then over the history.
*Result (partial).* Proved for every history of failing and succeeding batches
over any partitions, if a batch does not fail before its first log record, no
event allocation and no first page allocation fails, and each event is the
largest of its partition or the partition fits one page. Full statement false
in each case: an oversized key in the first event makes the rollback read
before a NULL buffer, a failed event allocation makes it remove the event
NULL, a failed first page allocation hits an assertion, and after a page split
earlier events of the batch stay in the table.

### C10. Last write wins and deletes hide

*Model.* Batches, tables, files, refresh steps, rotation, restarts as one
state machine (`Model/Durable.lean`).
*Proof.* Invariant over histories: the reads equal a last-write-wins map.
*Result (partial).* Proved for all histories of batches, refreshes at any
stage, rotations, garbage collections and restarts in which no refresh fails;
false after a failed refresh (the next one puts the older memory table in
front).

### C11. A full scan returns exactly the live events in ascending order

*Model.* `part_cursor.h`, `engine_cursor.h`, the API cursor, on top of
memtable, file and merge models (`Model/Cursor.lean`).
*Proof.* Composition of the scan theorems of the layers; induction over the
partitions visited.
*Result (partial).* Proved for every history of partitions, tables and files
within the limits of C03, C07 and C15 (ranges below 2^63 and less than 2^31
apart, tables of one page or growing at the end): the scan ends and returns
each live event once, in order. Full statement false: with a partition that
reaches the end of the id space the scan starts over and never ends, and
opening a cursor on it while empty hangs.

### C12. A keyed cursor starts at the first live event >= the key

*Model.* As C11, with a start key through `part_iterator_open` and
`index_iterator_open`.
*Proof.* As C11, with the seek theorems of the layers.
*Result (partial).* Proved within the limits of C11, with a start key within
the limits of C08 for the tables of the partition where the cursor starts, and
not between the last event of its id and a later event of the same file. Full
statement false: with a start key after the last event of a file region the
rest of the file is skipped.

### C13. Merging sources keeps order and priority

*Model.* `merge_iterator.h` over arbitrary sources
(`Model/MergeIterator.lean`).
*Proof.* Invariant by induction over steps; the output is the unique ascending
list of the newest versions.
*Result (partial).* False for ids 2^63 or more apart (comparison wraps).
Proved for any number of sorted sources with ids in a window of 2^63.

### C14. Refresh does not change what readers see

*Model.* `merger_write`, `refresh_run` (`Model/Merger.lean`,
`Model/Durable.lean`).
*Proof.* The file gets the merge of its sources without deletes; each step
keeps the reads.
*Result (partial).* Contents of the new file proved for sorted sources in one
id window; every step of a refresh leaves reads unchanged unless an earlier
refresh failed, then it is false.

### C15. Partition file round trip

*Model.* `writer.c`, `region_writer.h`, `index_writer.h`, `part_open`,
`reader.h`, `region_iterator.h`, `part_iterator.h` on bytes
(`Model/Region.lean`, `Index.lean`, `Writer.lean`).
*Proof.* Round trip on bytes, composed from regions, index and file.
*Result (partial).* Byte level: writer, index footer, open, region reads and
the file iterator. False in two ways: event_size counts the key twice, so
writing a keyed event reads past its memory; zstd output that does not shrink
is cut off and the file cannot be opened. Proved for every sequence, region
size, codec and encryption outside these two.

### C16. File regions partition the key space by id

*Model.* `writer_add`, `writer_is_region_limit` (`Model/Writer.lean`).
*Proof.* Induction over the events written.
*Result (partial).* Proved for region size limits below 2^32; false above
because the limit is compared in 32 bits.

### C17. File index lookup finds the right region

*Model.* `index_iterator.h` (`Model/Index.lean`).
*Proof.* Binary search against the list of regions.
*Result (partial).* False when the found region's largest id is 2^31 or more
above the request (the region is skipped), when the request is more than 2^31
above the last id, and across 2^63 (signed overflow). Proved otherwise for any
number of regions, with the consequence for the first event at or after the
request.

### C18. File index footer survives a round trip and damage is detected

*Model.* `part_open`, `index_read` and its checks (`Model/Index.lean`).
*Proof.* Linearity of the checksum: a burst of at most 32 bits changes it.
*Result (partial).* Byte level, all codecs. False in two corners: a burst
across the two checksums of a file without events passes (what is read is
unchanged), and a cut right after an event value that is itself a valid header
passes. Everything else proved: bursts anywhere in index data and header,
wrong lengths, exact condition for cuts.

### C19. Region damage is detected on read when crc is enabled

*Model.* `reader.h`, `region_iterator.h` on damaged bytes.
*Proof.* Decision logic of what is checked; witnesses by computation.
*Result (partial).* False: the recorded region checksum is never compared. A
changed value byte is returned and a changed offset makes the reader leave its
buffer. Without compression exactly damage to the first eight bytes is
detected.

### C20. Log record round trip

*Model.* `log_add_event`, `log_write_seal`, `wal_cursor_next`
(`Model/Wal.lean`).
*Proof.* Round trip on bytes.
*Result (partial).* Holds when the bytes behind each event in memory are the
same at sealing and at writing (always without keys or with wal_crc off);
false with wal_crc on for batches with two keyed events of one table, because
event_size counts the key twice and the checksum covers bytes that change.

### C21. Log sequence numbers increase strictly

*Model.* Log sequence numbers in `Model/Durable.lean`.
*Proof.* Invariant over histories.
*Result (partial).* Proved for histories without drops; false with them:
replaying a drop does not advance the number, so it is given out again.
C21_files_partial says the same of the bytes of the log files, through writes,
rotations, garbage collection and restarts, with the limits of C23: the
numbers read back increase, and none is above the next number.

### C22. Reading the log returns every record from a position, in order

*Model.* `wal_cursor.c`, `wal_file.h`, `wal_id.h` (`Model/Wal.lean`).
*Proof.* Induction over files and records.
*Result (partial).* Holds for start numbers 0 or at or after the first file
and files of at most 3 GiB; false below the first file (nothing is returned)
and for files near 4 GiB.

### C23. A torn log tail loses only the torn record, now and later

*Model.* As C22, with a cut at any byte of the last record.
*Proof.* Case analysis of the cut.
*Result (partial).* Recovery of all earlier records proved for every cut
position. False for records logged after that restart: they go behind the torn
bytes, and the next restart fails (with checksums) or reads outside the
record. Proved when nothing of the record reached the file, or when the log is
rotated first.

### C24. Log garbage collection never removes needed records

*Model.* `wal_gc`, `engine_gc` (`Model/Wal.lean`, `Model/Durable.lean`).
*Proof.* File level: decision logic; database level: invariant.
*Result (partial).* File level proved in full (only files below the oldest
needed number go, newest stays). Database level proved outside two windows;
false when garbage collection runs between refresh_apply and the deletion of
the old file.

### C25. Acknowledged writes survive a crash

*Model.* Crashes at every step of `Model/Durable.lean`.
*Proof.* Invariant: every acknowledged batch is in a file or in the log.
*Result (partial).* Proved for all histories and crash points outside three
cases; false in each of them: log garbage collection inside a refresh, log
garbage collection inside a batch, refresh after a failed refresh.

### C26. Restarting is idempotent

*Model.* Repeated restarts in `Model/Durable.lean`.
*Proof.* Restart is idempotent on the contents.
*Result (partial).* Proved for any number of restarts without drops; false
with drops: replay logs the drop again behind newer batches and the second
restart loses them.

### C27. A crash during refresh loses nothing

*Model.* The files of one partition step by step, with crashes and restarts
(`Model/Files.lean`).
*Proof.* Invariant over the states reachable by completed and cut operations.
*Result (partial).* All histories of create, refresh, move, upload, download
and drop, each complete or cut off at any step, with restarts cut off at any
step: the old or the new version, complete. False after operations that fail
without a crash: their leftovers can keep the database from opening, or bring
back the old version.

### C28. Partition file names identify partition and state

*Model.* `id.h`, `engine_recover_id` (`Model/FileName.lean`).
*Proof.* Round trip over all ids.
*Result (partial).* Round trip and distinctness hold for every id. Rejection
of foreign names is false (short numbers, numbers above 2^64 wrap).

### C29. Serial ids are unique and increasing

*Model.* `engine_set_serial`, `config_ssn_*` on top of `Model/Durable.lean`
(`Model/Serial.lean`).
*Proof.* Invariant over histories.
*Result (partial).* Full statement false: an explicit id above the serial
number is later overwritten (config_ssn_follow is never called); if the last
partition holds no event (all deleted and refreshed, or created by a refused
batch) the serial number restarts at 0 and events are overwritten; ids of
dropped events are given again after a restart. Proved: ids increase while the
process runs; with explicit ids below the serial number and a last partition
that holds an event after every restart no stored event is overwritten,
deletes, drops and failures included; without deletes, drops and failures the
full statement.

### C30. Open cursors stay ordered under concurrent writes

*Model.* `memtable_iterator_sync`, `memtable_iterator_next` with an attached
iterator (`Model/Memtable.lean`).
*Proof.* Simulation of a cursor over the list: position of the iterator in the
list of all events.
*Result (partial).* Proved for a cursor over the in-memory table, opened at
its start, under writes within the limits of C07 that do not go directly
before the cursor, do not replace an earlier event of its page, and do not
split its page while the cursor is on the part that stays. Full statement
false for each of these: an insert directly before the cursor makes it return
an event twice, an update of an earlier event of the page moves it on (at the
end of the page it reads an unset slot), an append that splits the page moves
it on.

### C31. Partition locks are exclusive

*Model.* `lockage.h` (`Model/Lockage.lean`).
*Proof.* Transition system over any number of threads; invariant by induction
over schedules.
*Result (partial).* False when one thread takes the same partition lock twice
(a batch of two events): two other threads then hold it together. Proved
without nesting for any number of threads and any schedule; no wake-up is ever
lost, with nesting too.

### C32. Writers cannot deadlock each other

*Model.* Lock order of `engine_write` over `Model/Lockage.lean`.
*Proof.* Progress argument on the largest lock held.
*Result (partial).* False for batches that visit two partitions in opposite
orders. Proved for any number of writers whose batches visit partitions in
ascending order, repeats allowed.

### C33. Background requests are neither lost nor duplicated

*Model.* `service.h`, `engine_service` (`Model/Service.lean`).
*Proof.* Transition system; each request is tracked through the queue.
*Result (partial).* False when an action fails: the remaining actions of that
request are dropped. Proved for histories without failing actions; never
executed twice in any history.

### C34. Typed binary values round trip

*Model.* `data.h`, `encode.h` (`Model/Data.lean`).
*Proof.* Round trip by structural induction.
*Result (partial).* False for doubles in float range that need more than float
precision: data_write_real rounds them. Every other value, nesting and length
proved, including data_skip and the exact condition under which a real
survives.

### C35. Configuration text round trip

*Model.* `json.c` (`Model/Json.lean`).
*Proof.* Round trip by structural induction.
*Result (partial).* Proved for tables of any values without unescaped quotes,
integers near the ends of 64 bits, and reals; false for those: no escaping in
the export, overflow in the number parser, 32-byte buffer for reals.

### C36. A crash while saving the configuration never loses it

*Model.* `config_save` and `config_open` step by step (`Model/Config.lean`).
*Proof.* Crash enumeration over all steps.
*Result (partial).* Proved at crash points before the rename and after the
last write; in between the old text is kept as the copy but not found again
(false); a half-written file is never taken for a configuration.

### C37. Settings can only be changed when allowed

*Model.* `execute_set`, `var.h` (`Model/Config.lean`).
*Proof.* Decision logic for every variable and value.
*Result (partial).* All the rules proved for every variable, flag, phase and
value; a failing SET changes nothing except when saving the file fails, where
the new value stays (false).

### C38. Storage statistics equal the stored data

*Model.* Storages, pipelines, metrics (`Model/Storage.lean`).
*Proof.* Invariant over histories.
*Result (partial).* After any history the counters are the sums plus the files
dropped from partitions (C38_counters), so exact without such drops; partition
counts and SHOW always exact. False in full: engine_drop_file clears the state
before storage_remove_metrics, which then does nothing.

### C39. Tiering moves the oldest partition of an over-full tier

*Model.* `engine_rebalance_next` (`Model/Storage.lean`).
*Proof.* Decision logic; termination measure.
*Result (partial).* Right choice with right counters when no partition is
marked or the last tier is within limits; within-limit tiers left alone; ends
within limits for pipelines that only move. False: stale target name after a
marked partition, a last tier over its size limit is emptied, a pipeline a,b,a
never ends.

### C40. Storages and clouds in use cannot be removed and renames keep references

*Model.* `storage_mgr.c`, `pipeline.h` commands and their persistence
(`Model/Storage.lean`).
*Proof.* Invariant over histories.
*Result (partial).* All histories of commands, partition operations and
restarts, failing saves included, in which ALTER STORAGE does not fail to set
a cloud and a pipeline does not name a storage twice. Both exceptions are
shown to leave a configuration that cannot be loaded. Giving a storage another
cloud while files are in the old one is refused, too.

### C41. A partition always keeps a readable copy

*Model.* Upload, download, offload and drop step by step (`Model/Files.lean`).
*Proof.* Invariant over the states reachable.
*Result (partial).* Any sequence of operations with errors at any step of
uploads and downloads and before the point of no return of refreshes and
drops, or with crashes at any step, when a copy is dropped only if there is
another. False otherwise: DROP ... ON STORAGE of the only copy, failures after
that point, a lost answer of the cloud. C41_automatic and C41_uploaded,
without conditions: cloud_drop_local leaves a partition as it was or in the
cloud, and an upload leaves it as it was or with both copies.

### C42. Dropping a range drops exactly the partitions inside it

*Model.* `engine_foreach`-based range commands (`Model/Ranges.lean`).
*Proof.* Induction over the partitions of the range.
*Result (partial).* False when the range starts inside a partition and when a
partition ends at 2^64-1. Proved otherwise.

### C43. Memory accounting is exact

*Model.* `memory_mgr.h` (`Model/Heap.lean`).
*Proof.* Invariant over histories, down to the linked lists of pages.
*Result (partial).* False when mmap fails (the page count stays too high) and
for a limit that is not a whole number of pages (exceeded by up to one page).
Counts proved exact otherwise, at the level of the linked page lists.

### C44. Table allocations never overlap

*Model.* `heap.h`, `event_allocate` (`Model/Heap.lean`).
*Proof.* Invariant: allocated intervals are disjoint and inside their page.
*Result (partial).* False for records larger than a page: event_allocate
writes through NULL, or outside the page from 2^31 bytes on. No overlap proved
for every history of requests below 2^31 bytes.

### C45. UUID text round trip

*Model.* `uuid.c` (`Model/Uuid.lean`).
*Proof.* Round trip.
*Result (partial).* Round trip and rejection proved for texts up to 36
characters; longer texts with a valid prefix are accepted by the code.

### C46. The compression codec used is the one requested

*Model.* `compression_mgr.c`, `cache.h` (`Model/Codec.lean`).
*Proof.* Invariant over histories.
*Result (partial).* False: a returned lz4 context is handed out as zstd.
Proved for histories that obtain no zstd context after an lz4 one; that no
context is with two users at once is proved for every history.

### C47. Number units in commands mean what they say

*Model.* `lex.c` units (`Model/Lex.lean`).
*Proof.* The finite table of units, for any number.
*Result (partial).* False for min, month(s), year(s) and for products of 2^64
or more. Proved for every other unit word, any case and white space.

### C48. Decoding a stored object checks every field

*Model.* `decode.h`, `source.h`, `cloud_config.h`, `tier_config.h`
(`Model/Decode.lean`).
*Proof.* Exact condition of acceptance; round trip.
*Result (proved).* Every stored map for storages, clouds and tiers: accepted
exactly when every field is present with its type, unknown keys reported, and
what write produces reads back.

### C49. Replay skips exactly what is already stored

*Model.* Replay decision in `Model/Durable.lean`.
*Proof.* Invariant over histories.
*Result (partial).* Decision for one event proved in full; for whole histories
proved unless a refresh failed, then it is false (an unsaved batch is
skipped).

### C50. Cleanup handlers run exactly once, innermost first

*Model.* `exception.h`, `guard.h` as a small language (`Model/Guard.lean`).
*Proof.* Induction over programs.
*Result (proved).* Every nesting of blocks, catch points, rethrowing handlers
and cancelled cleanups; cleanup functions themselves do not throw.

### C51. A partition is scheduled for refresh when it reaches its watermark, once

*Model.* `part_refresh_ready`, the `refresh` flag, the service queue
(`Model/Sched.lean`).
*Proof.* Invariant over histories.
*Result (partial).* Proved for every history of writes, refused writes,
checkpoints, requests, rebalances, commands, drops and restarts: with a
watermark below 2^32 a batch over it is scheduled unless a background refresh
failed since the last successful one; and nothing is scheduled twice unless a
command refreshes the partition or it is dropped meanwhile; what is compared
is what was written since the last refresh began unless one failed. Full
statement false: after one failed refresh the flag stays set for ever; REFRESH
or DROP while a request waits leads to a second request; a watermark of 2^32
is stored as 0.

### C52. Checkpoint empties memory and truncates the log

*Model.* CHECKPOINT in `Model/Durable.lean`.
*Proof.* Invariant over histories.
*Result (partial).* Proved after every safe history with nothing under way;
false after a failed refresh (the older memory table is not saved).

### C53. Reading a command never leaves the tokenizer's memory

*Model.* `lex.c` tokenizer with its push-back array (`Model/Lex.lean`).
*Proof.* Invariant on the array over any sequence of parser calls.
*Result (partial).* False for four integers in a row (five overflow on the
first read) and for bytes of 128 or more outside strings and comments. Proved
for all other texts, of any length, and any parser.

### C54. A checksum does not depend on the processor or on how it is fed

*Model.* `crc.c`: instruction, byte and table versions (`Model/Crc.lean`,
`CrcTables.lean`).
*Proof.* Linear algebra over bits; the tables checked against the polynomial
by the kernel.
*Result (proved).* Instruction and table versions equal bit by bit polynomial
division for all bytes, start values, addresses and pieces; every burst of up
to 32 bits changes the checksum.

### C55. A new partition file contains nothing of an earlier one

*Model.* `file_create` (no O_TRUNC), `file_write`, the `.incomplete` file over
failed and successful refreshes (`Model/Leftover.lean`).
*Proof.* Bytes of overlapping writes; lengths over histories.
*Result (partial).* Exact condition proved: the file is what was written if
and only if no refresh that failed since the last success or start wrote more
bytes; it is then read back within the limits of C15. False otherwise:
file_create does not truncate, so the end of a longer leftover stays; after a
restart the file cannot be opened, or the index of the old file is used and
deleted events return.

### C56. Reads and writes of files are complete or fail

*Model.* The loops of `vfs.c` over a list of answers of the system calls,
`file_write`, `file_writev` (`Model/Vfs.lean`).
*Proof.* Induction on the answers.
*Result (partial).* All loops proved for every sequence of answers, vfs_writev
without exception. False in two corners: reading or writing zero bytes reports
an error, and after a write that failed half way the recorded size is not that
of the file, so that the next write goes behind torn bytes. The recorded size
is proved right as long as no write failed.

### C57. A cloud request is signed and addressed for its object

*Model.* `s3_request_encode_base64`, `s3_request_prepare` with array bounds
and `snprintf` cutting; HMAC-SHA1 opaque (`Model/S3.lean`).
*Proof.* Lemma per group of three bytes, induction on the groups.
*Result (partial).* False of the code: every request writes 29 bytes into an
array of 28. With one more byte the encoder is proved equal to RFC 4648 for
every digest, and the request right for a login of at most 222 and an url of
at most 965 characters; longer ones are cut silently, up to one address for
all objects. The paths of different objects are proved different.

### C58. A command is understood as written

*Model.* All of `main/command/parse*.c` as programs over the tokenizer of
C47/C53 (`Model/Parse.lean`).
*Proof.* A parser over items, shown equal to the parser over the tokenizer;
then the grammar against it, both ways.
*Result (partial).* Proved without conditions for the grammar as it is in the
code: accepted exactly if the text says the command, and each text has one
reading. Against the grammar of the comments it is proved for all commands but
those on storages and the pipeline with numbers of 2^63 or more, which become
negative, and pipelines with an empty list of tier options, which the code
refuses (or takes without a comma). Freedom from failed asserts and undefined
behaviour needs a text without four integers in a row and without bytes of 128
or more outside strings and comments, as in C53.

### C59. Operations cannot deadlock each other

*Model.* The control lock and the locks each operation takes, in order
(`Model/Control.lean`), over the partition locks of C31.
*Proof.* Discipline of scripts, invariant over all interleavings; the holder
of the highest waited-for lock can move.
*Result (partial).* Proved for threads that visit partitions upwards and
change nothing while they have a cursor open. False otherwise: a thread with
an open cursor that runs SET, CHECKPOINT, DROP PARTITION or any other
exclusive command waits for itself; a thread with a cursor that refreshes its
partition and the worker wait for each other. With a reader-writer lock that
puts writers first (POSIX leaves it open) a batch of two events, or SHOW
STORAGES, and a SET deadlock. The engine mutex and the locks inside the log
and the queue are not modelled; they are not held while another lock is taken.

### C60. A write reported as failed leaves no trace

*Model.* Failed log writes (`State.fail` in `Model/Wal.lean`) beside the log
of C22 and C23.
*Proof.* Induction over the operations with the invariant of C23; a failed
write equals a torn one or, in the sync, a completed one.
*Result (partial).* Proved for any mixture of operations when writes fail
before their first byte, and for a torn write directly followed by a restart.
False otherwise: a batch whose sync failed is always back after a restart, and
shares its number with the next one; a write that fails half way makes the
next acknowledged one unreadable, so that the database does not open (with
checksums) or the restart reads outside a record (without). Missing beyond
that: drop records among the successful writes (see C21).

### C61. A directory is used by one environment at a time, and is free again when that one is closed

*Model.* The directory lock: handles, file descriptors and `flock` of all
processes (`Model/Directory.lean`).
*Proof.* Invariant over all histories: every use has its locked description,
descriptions belong to one handle.
*Result (partial).* The first half (never two at a time) is proved for every
history; the second for histories that open each handle at most once. False
otherwise: a second monotone_open on a handle, also after a failed first one,
is refused as in use by another process, loses the descriptor with the lock,
and from then on nobody can open the directory until the process ends; opening
an open handle on another directory is not refused. Descriptors inherited by
fork are not modelled.

### C62. What is read back from the cloud is what was put there

*Model.* The transfers: callbacks, libcurl's pieces, the server's answer, the
range header (`Model/Transfer.lean`).
*Proof.* Induction over the pieces; the header is understood as the region;
round trip.
*Result (partial).* Uploads and downloads are proved for every way of being
cut into pieces and of failing; reading a region for servers that support
ranges. False for servers that ignore the Range header, which HTTP permits:
the whole object is taken for the region, and neither the status nor the
number of bytes is checked. libcurl and the server are modelled by what they
do (the server stores nothing of an incomplete body), not verified.

### C63. SHOW does not reveal passwords and encryption keys

*Model.* SHOW: memory, log, clouds, storages, partitions, pipeline,
configuration and variables by name (`Model/Show.lean`).
*Proof.* Every answer is computed from the state without its secrets; for the
two variables, the secrets are found in the text.
*Result (partial).* Proved for every SHOW but that of the variables `clouds`
and `storages` by name. False for these two: `SHOW CONFIG clouds` answers with
every password and `SHOW CONFIG storages` with every encryption key (proved
for every database), because the variables are only hidden (VAR_H), not secret
(VAR_S). The answer is taken from one state; locks are the subject of C59.

### C64. SHOW tells what is there, as JSON

*Model.* As C63, with the writer of JSON texts (`Model/Json.lean`).
*Proof.* Documents are values; the answer encodes the document (sums by
folding over the partitions, the tree walk of C02, the lookup of C03), and the
text written for it is derived in a grammar of JSON.
*Result (partial).* Proved for every SHOW command and consistent state when
the document has no string with a quote, backslash or control character and no
number of 2^63 or more, and for SHOW PARTITION when ids are below 2^63 and
near a partition (as in C03). False in general: strings are written without
escapes, so SHOW DIRECTORY of a directory with a quote in its name is not
JSON; a partition that ends at 2^64 - 1 is shown as ending at -1. The texts of
real numbers (never part of these documents but for data in configuration) are
not looked at, nor is UTF-8. The answer is taken from one state; locks are the
subject of C59.

### C65. Messages are logged and reported safely, whatever their length

*Model.* The logger, errors and formatted output into fixed buffers
(`Model/Log.lean`); what a format gives is a parameter.
*Proof.* Each `snprintf` that fits extends the text in the buffer; a message
that does not fit moves the offset past the buffer.
*Result (partial).* Proved for messages that fit (errors of up to 993 bytes).
False for longer ones: `len` is advanced by the size the text would have, so
the end of line is stored past the end of the 1024 bytes on the stack (proved
for every longer message), for instance by SHOW with an unknown name of 973
bytes. The text that a format gives is a parameter; messages of 2^31 bytes and
more are left out.

### C66. Linked lists are sequences

*Model.* Links in memory and the operations and loops of `list.h`, caches of
`cache.h` (`Model/Links.lean`); reading or writing a link that is not there is
undefined behaviour.
*Proof.* A frame lemma for paths, then one lemma for putting a link between
two and one for taking it out; the operations follow by refinement.
*Result (proved).* Proved. Also proved: `list_pop` on an empty list gives the
head itself (both callers ask first), and the loop that is not the safe one
may not free the element it is at.

### C67. Buffers grow and keep what was put into them

*Model.* `Buf` and `Iov` with their blocks in memory (`Model/Buf.lean`); the
allocator and the content of fresh memory are parameters, overflow of `int` is
undefined behaviour.
*Proof.* An invariant that the block begins with the content; the pieces are
read back from the bytes of their structs.
*Result (partial).* Proved for buffers of up to 2^30 bytes and vectors of
fewer than 2^26 pieces and 2^31 bytes. False above: a full buffer of 2^30
bytes or more cannot grow, since twice its capacity overflows `int`, and the
size of a vector overflows with 2^31 bytes (both proved in general). memcpy of
no bytes from or to NULL is taken as harmless.

### C68. Random numbers run through a full cycle and keys get made of them

*Model.* The generator on 64-bit words, the loop over the bytes of its numbers
with a bound on the numbers drawn, and the choice of a key in CREATE STORAGE
(`Model/Random.lean`).
*Proof.* The step is a linear map on 128 bits; it is a root of a polynomial of
degree 128, modulo which its powers are computed by the kernel; with the
primes of 2^128 - 1 (the largest by Lucas' criterion) this gives the period,
and counting gives that all states are met. That a letter comes again and
again follows.
*Result (proved).* Proved for every seed but zero, which `random_open` can
give; with it the loop never ends (`C68_zero`). Asked for no bytes or for more
than the array has, it writes past the end (`C68_over`); the one caller asks
for 32. `isalnum` is that of the C locale. The numbers are not secret in a
cryptographic sense; nothing is claimed of that.

### C69. Closing ends all workers, and ends

*Model.* Threads with their place in `worker_main`, the array of workers, the
queue of C33, and the thread that closes, interleaved at critical sections
(`Model/Lifecycle.lean`); waiting at a condition variable is a state of its
own.
*Proof.* An invariant on threads and array; while closing, each step of a
worker or of the closing thread lowers a number, and one of them is always
possible.
*Result (partial).* Proved for histories in which the workers are started at
most once, and all of them; before that any number of openings may fail. False
otherwise: if memory for the workers or a thread could not be had,
monotone_open fails and monotone_free then uses NULL or joins a thread that
does not exist; after a second monotone_open with another directory the first
workers are not waited for. That an action itself ends is assumed (C39 and C59
have cases where it does not).

### C70. Every file has a path of its own

*Model.* The path builders with snprintf's cutting off, and the storage
commands as far as names, uuids and paths go (`Model/Paths.lean`).
*Proof.* The last component of a path and the directory before it are unique
because names, uuids and numbers have no slash; names and uuids are told apart
by C28 and C45; an invariant on the uuids of the storages.
*Result (partial).* Proved when no two storages are given the same uuid and
all paths fit into PATH_MAX. False otherwise: CREATE STORAGE takes a uuid that
is already in use, even that of main, and both storages then have the same
files; with very long directory names the paths are cut off and files
coincide. Paths are compared as texts: symbolic links are outside the model.

### C71. Nothing that was freed is used by another thread

*Model.* Threads as lists of steps between which others can come in: searches
under the engine mutex, locks, reads of `ref->part`, uses, replacement,
freeing (`Model/Access.lean`).
*Proof.* An invariant: who holds which lock (C31), a token in the control lock
for every variable with a reference, every pointer read under a lock is either
current or known to its thread only; the code of every call is checked once
against the rules the invariant needs.
*Result (partial).* Proved for all schedules in which no thread takes a lock
that it already has, and from that for programs with one cursor at a time,
nothing else while it is open, and single events. False otherwise, because
partition locks are recursive and a nested one is lost at the first release: a
thread that refreshes the partition its own cursor is in, a thread that writes
to the partition of its cursor while a worker refreshes it, and a batch of two
events in one partition during a refresh all use freed memory. Accesses within
one step are not interleaved: races on single fields are outside the model.

### C72. The log tells what concurrent threads did

*Model.* Threads as lists of steps on the versions of events and the log;
locks as in C31 and C35 (`Model/Interleave.lean`).
*Proof.* An invariant: in a partition a thread has, memory is what the log
tells with the thread's own events on top, and its saved versions are what the
log tells; in all others memory is what the log tells, except where a drop is
not yet logged. The log is read by the history function of C25
(`Dur.version`).
*Result (partial).* Proved for all schedules if the events of every batch are
in different partitions and nobody else touches a partition that a thread
drops. False otherwise: a batch with two events in one partition gives up
another thread's lock at its second release, and the records of two writers
get into the log in the other order than their events into memory; and a drop
is logged after the control lock is released, so a write that comes in between
is logged before it and lost at the next start. A failed wal_write leaves no
record here (C60 is about those that do).

### C73. A command does what it says or changes nothing

*Model.* The commands of C40 (`Model/Storage.lean`).
*Proof.* Every command against a function on catalogs of names (`want`), case
by case, with the invariant of C40 for the references; on errors by unfolding.
*Result (partial).* Proved for the histories of C40 and commands whose save
succeeds and that do not set a cloud which cannot be used. When the save fails
the command has been done in memory and only the file is old; any error leaves
the file as it was. False: a CREATE CLOUD that reports an error because the
file cannot be written is saved by the next command; an ALTER STORAGE to a
missing cloud is refused after the old cloud has been given up.

### C74. Threads do not race for partition data

*Model.* Threads, their locks and the engine mutex, with what every step reads
and writes (`Model/Races.lean`, on top of `Model/Access.lean`).
*Proof.* A table says under which locks each function touches what; programs
are checked against it step by step, the invariant of C71 gives exclusion for
every lock, and the pairs of table rows without a common lock are computed.
*Result (partial).* Proved, when no thread takes a lock it already has: the
only races are seven named pairs of functions, each on one part of a
partition; without SHOW, downloads and rebalancing there is none. False in
general: each of the seven races has a witness, and with a lock taken twice a
cursor reads a memtable that another thread writes.

### C75. A partition reads the same wherever its copies are

*Model.* One partition with its files, object, descriptor, index and index
data as bytes, and the operations that move copies, failing anywhere
(`Model/Cold.lean`, on top of the file format of C15 to C19).
*Proof.* An invariant on files, object and memory; the cloud file made from
the footer opens to the same index and index data as the file (with the footer
lemmas of C18), and the scan of C15 gives the events.
*Result (partial).* Proved for histories in which downloads deliver the
object, the local copy is dropped without failing and only while cloud file
and object exist, and no restart comes between two failed downloads of a kind.
False in general: a damaged download spoils the index in memory, a failed drop
closes the file, a failed drop in the cloud leaves the state saying there is a
copy, two failed downloads keep the database from opening.

### C76. The memory of a command is given back once

*Model.* The parsers of C58 with malloc, free, guard and unguard put back in,
blocks known by the number of their allocation, any allocation failing
(`Model/CmdMem.lean`).
*Proof.* A simulation: a parser with memory against the same parser without,
under an invariant saying that the live blocks are those under guards and
those of before; the tokenizer never refuses a tidy text.
*Result (partial).* Proved for texts without four integers in a row (C53),
with closed strings, known characters and no fractions, and without empty
strings; and for texts refused inside their command. False in general: a token
that cannot be read after a complete command leaves the command behind, and an
empty encryption key is not freed when a key is made.

### C77. Packed data is read back, other data is refused

*Model.* The codecs and the reader over the buffers of C67, with the memory of
earlier uses in them (`Model/Pack.lean`). The libraries are given by what they
document: a counter mode with any stream and tag, streaming lz4 and zstd with
the space they are given.
*Proof.* Exact contents of every buffer after every call; the mixing undoes
itself; a measure of data and space left for the loop of lz4.
*Result (partial).* Reading back is proved for everything but zstd frames
longer than their input. Refusing is proved for encrypted data with a wrong
tag and for all data without compression that has the size the index says; the
lz4 loop ends unless the buffer is full. False in general: encrypted data
below 32 bytes is read out of bounds, lz4 data with more content than expected
is read forever, and lz4 or zstd data with less content gives a region ending
with what was in memory. The encryption assumed in `Model/Region.lean` is
shown to be what the code does.

### C78. A cursor that fails gives everything back, and goes on where it was

*Model.* The cursor from the API down to the reader, as computations that may
fail at every numbered step and that note what they take and give
(`Model/Scan.lean`). Events are id, deletion mark and value.
*Proof.* Triples for results and exceptions: one set for what is held, one for
which events are still ahead; a measure of events and partitions ahead for the
loops.
*Result (partial).* That everything is given back once, that loops end, and
that a cursor at its end holds only memory is proved for all failures. All
live events are got if no call fails; events read after calls that succeed are
always live and in order. False: a call that failed and is repeated passes
over a region, or over the file of a partition, in silence, and a read after a
failed call may give an event out of order or a version that was replaced.

### C79. Every lock is given back, whatever fails

*Model.* All functions that take a lock, from the API down, as computations
that may fail at every numbered step, with the locks held and every action on
them noted (`Model/Hold.lean`). What data say is asked of an oracle; lock
waits of other threads are left to C59.
*Proof.* Triples that say which locks are held when a function returns and
when it throws; for writes, the locks of the records of the log.
*Result (partial).* Proved for every call and every failing step but three,
and short of the crashes of a rollback known from C09. False: wal_rotate keeps
the lock of the log if its list of files cannot grow, engine_rebalance_next
the mutex of the engine if a name cannot be copied, engine_commit the locks of
the batch if a refresh request cannot be allocated; a batch without events
whose log write fails is rolled back in front of NULL.

### C80. Settings of storages can be changed without losing data

*Model.* Storages with all their settings and partitions, clouds, the
configuration file, and of each partition file its place and key; commands
from their text; refreshes, moves, drops, restarts (`Model/Settings.lean`).
Copies in the cloud are left to C41 and C75.
*Proof.* Invariant: every file has its storage, with its path and key, both in
memory and in the configuration file. For ALTER the grammar of C58 gives which
bit of the mask belongs to which name in the text.
*Result (partial).* That ALTER leaves alone what it does not name is proved
without conditions; what it names it sets, for numbers within 32 bits. Data
stays readable if new storages have new uuids, ALTER names a cloud that can be
attached, and partitions are written only while the configuration file is up
to date; each of these is needed. Storages stay writable if ALTER leaves no
encryption without a key.

### C81. A writer waits for memory only while there is none, and not for ever

*Model.* Pages counted, free ones and those of each partition, threads asleep
on the condition variable of the memory manager, beside the locks of C59
(`Model/Blocking.lean`). Pages have no addresses here (C43 has them); a
failing mmap and replay at the start are left out.
*Proof.* The invariant of C59 carried over to scripts that also take pages;
then the pages still asked for bound those in use. For needless waiting: pages
are free or belong to a partition, so pages given back always fit the cache.
The hang by an invariant over all scripts of refreshes.
*Result (partial).* The full property is false: a writer waits while it holds
the lock of the partition that has the memory. Nobody hangs if all that is
asked for fits, if there is no limit, or if calls fail instead; threads wait
only while they have to if the cache is as big as the limit and DEBUG
MEMORY_GC is not used; the refresh of a partition that nobody has locked ends
the waiting. Missing: partitions locked by others who will unlock them.

### C82. A command on partitions does what its text says

*Model.* From the text (the parser of C58) through the table of commands to
the operations on partitions (`Model/Commands.lean`). One thread; files and
clouds do not fail; a partition has events in its file and in memory, and
knows where its file is.
*Proof.* What an operation does to one partition between those before and
after it, computed; loops by induction over the partitions that are left. What
is kept whatever the reply by induction over the loop.
*Result (partial).* The full property is false: a range ending at the last id
starts over, a refused MOVE has already removed the copy on the cloud, refused
commands on several partitions stop half way. Proved without these; no command
but DROP loses events, and unless a partition ends at the last id every
command returns. Missing: CREATE PARTITION (C04), other threads, failing files
and clouds.

### C83. An environment opens again as commands left it

*Model.* Commands from their text (the parser of C58) to the objects, from
these to variables, to the JSON text of the file (C35), and back (C48)
(`Model/Reopen.lean`). Saving does not fail; partitions are arbitrary; the log
and the opening of partitions are left out.
*Proof.* Invariant: the variables stand for the objects, the file for the
variables (or for none but main), and every object passes what opening asks.
What the parser lets through by a Hoare logic over its programs; decoding by
value; each command keeps the invariant.
*Result (partial).* The full property is false: ALTER CLOUD may leave an s3
cloud without login, password or url, strings with quotes and numbers near
2^63 are not read back, ALTER STORAGE keeps the name of a missing cloud, and
renaming a storage that is in the pipeline twice leaves a tier without
storage; none of these opens again. Proved for all other commands. Missing:
failing writes of the file (C36, C73), opening of partitions (C26).

### C84. The database as a whole keeps the last version of every key

*Model.* One model made of the others (`Model/Whole.lean`): the partition
index (a red-black tree), memory tables (a red-black tree of pages), partition
files as bytes, the log as bytes, recovery from these bytes, the cursor. One
storage, no cloud, no drops; a crash falls between steps, into the record of a
batch, or into a new partition file; a batch may fail after any event or in
`wal_write`, a refresh in `refresh_merge`; steps of different threads do not
overlap (C30, C72, C74).
*Proof.* Simulation: every step of this model follows a step of the model of
tables as maps (`Model/Durable.lean`), whose invariant gives the contents
(C24, C25, C27). Memory tables by C07, files by C14 and C15, log by C20 to
C23, undone batches by C09, index by C03, the cursor by C11 and C13.
*Result (partial).* The full property is false: log garbage collection between
refresh_apply and the renames of refresh_end removes the log of events that
only the file without its final name has, and a crash loses them; a batch
behind a torn record makes the next start fail, and so can the rotation of a
log file whose first record is torn; a batch whose record is complete when its
sync fails comes back with the next start; undoing a batch without events is
undefined; a refresh after one that failed lets older events hide newer ones.
Proved for all histories in which garbage collection does not fall there, nor
between wal_write and engine_commit, and in which after a crash inside a
record the log is rotated before the next batch, with a whole record in it;
batches that fail at any event or with their record incomplete leave no trace,
if their tables stay in one page, and refreshes may fail while they merge, if
their partition is not refreshed again before the next start. Missing: failing
batches in larger tables (C09), ids from 2^31 on (C03), memory tables that are
written out of order after 512 versions (C07), files beyond the limits of the
format (C15); drops, the cloud.

### C85. The database as a whole, read from a key on

*Model.* The model of C84 (`Model/Whole.lean`), with the cursor opened at a
key. Same simplifications.
*Proof.* As in C84 up to the reading; the partition in which the cursor starts
by C08 (tables) and C12 (files), the ones after it as in C84.
*Result (partial).* The full property is false: with the ids 3 and 8 in
different regions of a file and a new event of the id 3 in memory, a cursor
opened at this event returns it and ends; 8 is skipped. Proved for keys that
are at or before all events of their id (as an id with an empty key), or whose
id is the last of its partition. Missing: other keys, seeks in tables of more
than one page that are not at the end (C08), and what is missing in C84.

### C86. Dropped partitions stay dropped, and take nothing else with them

*Model.* The model of C10 and C21-C26 (`Model/Durable.lean`): drops in their
two steps (file, then reference with its log record), the replay of drop
records, which logs them again. Log files are lists of records, no torn
records; one storage, no cloud.
*Proof.* Simulation: the part of the database that belongs to partitions never
dropped follows the same steps as a database without drops, for which the
invariant of C21 holds; for dropped partitions, an invariant on the log (every
batch is followed by a drop). The replay with drop records is described per
partition, including the records it appends while it reads.
*Result (partial).* The full property is false: a partition written to again
after a drop loses the batch after two restarts; and when everything was
dropped and the log cleaned, a restart begins the numbers again, the next log
file is sorted before the current one, and the older version of a key wins
after the next restart. Proved for partitions never dropped and for those
dropped after their last batch, for histories in which restarts do not make
the numbers go back. Missing: partitions written to again after a drop,
failing refreshes, garbage collection in the windows of C25, rotations that
meet the number of the current file.

### C87. The name of a storage does not tell its encryption key

*Model.* What CREATE STORAGE draws: the uuid, then the key, from the same
random numbers (`Model/Keygen.lean`, with `Model/Random.lean`), and the
encryption of `Model/Pack.lean`. Other threads may draw any number in between,
but none while the key is made; no uuid in the options.
*Proof.* Of two numbers in a row and the lower 26 bits of the word they share,
the rest of that word follows nine bits at a time; so there are at most 2^26
states, and keys, for a uuid. Counting keys gives the negation. For files, the
period of the generator (C68) leads back to the state before the key was made.
*Result (partial).* False of keys that are made: uuid and key come one after
the other from xorshift128+, and with the uuid at most 2^26 keys of 62^32 are
possible, which a short formula lists (`C87_search`, `C87_few`). The 16 random
bytes at the beginning of anything encrypted tell the same of keys made before
(`C87_file`) if it is known how many numbers were drawn since. Proved for keys
given in the command.

### C88. Changing events while reading them

*Model.* A cursor and an application that writes the event it is on
(`Model/Sweep.lean`, with `Model/Cursor.lean`, `Model/Memtable.lean`): the
table that takes the writes is the first source of the merge, with its
iterator attached. The partitions are a list in order (C03, C11); one thread;
no failing log or memory.
*Proof.* While the cursor is in a partition: the place of each source of the
merge, with the attached iterator kept by the writes at the first event after
the last one shown. The contents of the table are the writes so far; the rest
of the merge is unchanged by a quiet write.
*Result (partial).* False of updates: an event that is in the file or in the
table rotated by a refresh, and that has a later event in the table that takes
the writes, is always read a second time after it was changed (`C88_again`;
`C88_counted`: a loop that adds one adds two). Proved for deletes and for all
other updates, while the table that takes the writes stays on one page; there
`C88_exact_partial` says for all changes what is read and written. Missing:
tables of more than one page (C07). After a delete monotone_read returns 0, as
at the end, if the event was in that table, and the deleted event otherwise
(`C88_read_again`).

### C89. Texts show what they are given

*Model.* `vsnprintf` for the conversions that are used, arguments after the
default promotions with their types, pointers with the memory that may be read
(`Model/Messages.lean`); the format and the C types of the arguments of each
of the 283 calls, read from the source. What does not fit a buffer is C65 and
C67. The digits of a double are given.
*Proof.* A check of a format against the types is proved to be sound for all
values; it is run over the table.
*Result (partial).* False of four calls (`C89_wrong`): the error of an S3
request that failed shows the length of the cloud's name as the HTTP status
and the name as the reason (`C89_status`); the debug log of libcurl passes a
size_t for an int (`C89_debug`); the digits of a signature are read behind
their array (C57); the counts of a log record of 2^31 and more are shown as
int. Proved for the other 279.

### C90. A connection of a cloud serves one request at a time

*Model.* The cache with its list and its count, the handles of libcurl, and
requests that stop between the steps of s3.c (`Model/Conn.lean`). The
functions of the cache are one step, they hold its spinlock; the list is C66.
The cloud is freed only when no request is under way (C40, C69).
*Proof.* An invariant over all steps; counts of the requests that have a
handle for the bound on their number.
*Result (proved).* For any number of threads and any order of steps.

### C91. A scan reads each region of a file once, one at a time

*Model.* The cursor of C11 and C12 with a note of every call of reader_execute
(`Model/Reads.lean`). `C91_same` proves that without the notes it is the same
cursor. Skipping deletes is a number of moves.
*Proof.* An invariant of the iterator of a file (the positions read are
consecutive), carried through the merge of a partition and over the
partitions; the start of a keyed cursor from C17.
*Result (partial).* Proved within the limits of C11 for partitions and of C17
for the key, for any content: order, none twice, at most one region per move,
none ahead, none before the key, all at the end. Opening with a key may read
two regions (C91_two). C91_false: in a partition that reaches the end of the
id space the cursor starts again and reads all regions again.

### C92. Calls tell what happened, and handles last until they are freed

*Model.* The functions of monotone.c over the memory of handles (addresses are
used again) and one runtime for each thread, with its error text and entered
exceptions (`Model/Api.lean`). What the engine does inside a call is given:
the errors that are caught inside, and the error or the value at its end.
Calls are steps; threads inside the engine are C71 to C74, guards C50, the
length of messages C65.
*Proof.* An invariant between the handles an application holds, computed from
its calls and their answers, and the memory; the text of a thread is followed
through the calls of other threads.
*Result (partial).* Distinctness and freeing are proved in full. Safety is
proved when cursors are freed before their environment; C92_order: otherwise
freeing the cursor is undefined. Answers and reasons are proved for calls that
got memory for their handle and caught no error inside. C92_no_cursor,
C92_no_environment: without memory, NULL comes with no text, or with that of
an earlier call. C92_service: the command SERVICE returns 0 although its work
failed. C92_twice: the test for a freed handle never finds one, it reads
memory that is not allocated.

### C93. Every file that is opened is closed once

*Model.* All holders of descriptors and the table of open ones
(`Model/Descr.lean`); every call that may fail takes its result from a list,
errors unwind through the guards. Operations run one at a time under their
locks; the bytes of the files, allocation and the descriptors of libcurl are
left out.
*Proof.* Triples for every function: what is held is open and held once; all
open ones but `k` are held by a holder that lasts, and only a failure of four
kinds of operations raises `k`, by one.
*Result (partial).* That none is closed twice and that holders do not share
one is proved for all histories. That all are closed at the end is false
(C93_all_false): a refresh that fails at its first rename, a download of a
damaged file that is repeated, a rotation that fails at the sync, and a
failing open each lose one. Proved instead, for handles that are opened once:
each such failure loses at most one and nothing else does; without such
failures all are closed, and each open one has a holder that lasts.
C93_bound_reached: with failing rotations any number is lost. C93_again_false:
a second monotone_open after one that failed is refused by the lock of the
first, which stays after monotone_free.

### C94. A refresh reads each region of the old file once

*Model.* merger_execute and the loop of merger_write over the iterators of
C91, which note every call of reader_execute (`Model/RefreshReads.lean`).
`C94_same` proves that without the notes it is the merge of the whole
database.
*Proof.* An invariant of the iterator of any file (the positions read are 0,
1, …), carried through the merge; a merge that shows no event points to no
iterator, so at the end the file is used up (C91).
*Result (partial).* C94_once holds for any file, damaged or not: in order,
none twice, by the entries of the index. C94_partial adds all regions, one per
step, none ahead, for files within the limits of C15 (below 4 GiB, codecs
within their limits) and every table. C94_ends_partial: such a refresh comes
to its end within the limits of C07 and C14. Files beyond the limits of C15
are open.

### C95. What was put into a cloud is found there

*Model.* The commands of C83 with the objects of the clouds by their
addresses, and the partitions of storages (`Model/Reach.lean`). Contents are
numbers; a bucket with objects is not deleted by the server.
*Proof.* An invariant: the partitions of storages are disjoint, clouds of
storages exist, and the object of each partition in the cloud is at its
address; each command keeps the addresses of partitions in the cloud.
*Result (partial).* Proved for sessions in which ALTER CLOUD does not name the
url of a cloud that has partitions; that is accepted, and the partitions are
not found any more (C95_url_false). C95_restart: an environment that opens as
it was (C83) finds everything where it was.

### C96. The test cloud gives back what was uploaded

*Model.* The local file of a partition and the file in the `mock` directory,
byte by byte, over uploads that stop anywhere (`Model/Mock.lean`). A refresh
and a download are one step.
*Proof.* Bytes of overlapping writes as in C55; an invariant on histories.
*Result (partial).* C96_exact says when it holds: the file left in the mock
directory is not longer than the one uploaded. So it holds if nothing was
disturbed (C96_undisturbed_partial) or files never get shorter
(C96_grows_partial); then the events are read from the downloaded file
(C96_reads_partial). Otherwise a deleted event is back after download and
restart (C96_false_deleted_returns), or the downloaded file cannot be opened
(C96_false_lost). Reads from the cloud are right in any case (C96_read,
C96_kept).

## Disagreements found between code and property

Witnesses marked with a property id are proved in `Props/`.  The others were
found while reading and are not (yet) covered by a theorem.

Order and lookup

1. `memtable_search_page` (engine/io/memtable.c:93-113) tests `rc == 1` while
   the comparison returns a raw difference.  With two or more pages, out of
   order writes go to the wrong page (C07, C08).
2. `memtable_insert` links a split page with `rbtree_set(page, -1, split)`,
   which overwrites the right child of a page that is not the last one.
3. Comparison results are truncated to `int` in `memtable_compare`,
   `memtable_search`, `region_iterator_compare`, `mapping_find` and
   `index_iterator_open` (C01, C03, C17).
4. `compare_u64` subtracts as `int64_t`: signed overflow for ids 2^63 apart
   (C01, C13).
5. A memtable iterator whose seek lands at a page end stops although later
   pages exist (C08).
6. `part_iterator_open` with a key above the last key of the chosen region
   ends although later regions exist (C12).
7. `config_interval_of` overflows near 2^64 (C06); `slice.max + 1` wraps in the
   cursor: a scan starts over, opening a cursor hangs (C11); `engine_foreach`
   never ends (C42).
8. `engine_foreach` stops when the start lies inside a partition (C42).
9. CREATE PARTITIONS next to a partition ending at 2^64-1 overlaps it (C04).

Cursors and batches

10. An insert directly before an open iterator makes it return an event twice;
    an update of an earlier event of its page, or an append that splits the
    page, makes it skip one; at the end of the page it reads an unset slot
    (C30).  `memtable_unset` does not tell iterators at all.
11. The rollback of a batch with no log record (first key longer than 255
    bytes) walks from before a NULL buffer (C09).
12. The rollback after a failed event allocation removes the event NULL; after
    a failed first page allocation it searches a table without pages (C09).
13. The rollback after a page split leaves events of the failed batch (C09).
14. `lockage_unlock` loses count when a lock is nested (C31); batches over
    several partitions lock in event order: deadlock (C32).
15. A thread with an open cursor that runs an exclusive command waits for itself;
    one that refreshes the partition of its cursor can deadlock with the worker;
    with writers first, a batch and a SET can (C59).

Refresh, log and recovery

16. A failed refresh leaves a rotated memtable; the next one rotates back and
    the older table gets priority; a checkpoint then misses it, replay skips an
    unsaved batch (C10, C14, C25, C49, C52, C84).
17. Between `refresh_apply` and the deletion of the old file, and between the
    log write and `memtable_follow`, nothing holds back the garbage collection
    of the log (C24, C25).
18. The torn tail of the log is not truncated on open (C23); file offsets are
    32 bits wide (C22).
19. `wal_cursor_open` below the first file returns nothing (C22).
20. A failed `writev` to the log leaves a torn record, and later acknowledged
    records make the database unopenable; a batch whose log sync failed is rolled
    back but returns after a restart, and its number is used again (C60, C84).
21. Replaying a drop record writes a new drop record (C26) and does not follow
    its number (C21).
22. DROP deletes the file before it is logged.
23. `file_create` does not truncate: a new file over a leftover keeps
    its tail, and after a restart cannot be opened or shows deleted events (C55).
24. `event_size` counts the key twice: log checksums cover bytes that change
    (C20), the writer reads past the event (C15).
25. The region checksum is not verified on read (C19); a damaged offset leaves
    the buffer (C19); two corner cases of the footer check (C18).
26. Compressed data that does not shrink is cut off (C15); the region size limit
    is compared in 32 bits (C16).
27. A failed refresh leaves the flag that keeps the partition from being
    scheduled (C51, C33); REFRESH or DROP while a request waits lead to a second
    request (C51).
28. `engine_set_serial` looks only at the last partition and
    `config_ssn_follow` is never called (C29).
29. `engine_recover_id` accepts foreign names; numbers wrap (C28).
30. Leftovers of failed uploads, merges and moves keep the database from opening
    (C27); failed steps after the point of no return bring back an old version
    or lose the only copy (C27, C41).
31. `config_save` has a crash window without a configuration file (C36); a SET
    whose save fails keeps the value in memory (C37).
32. `refresh` keeps a pointer to its target storage without a lock; DROP STORAGE
    meanwhile frees it.

Storages and pipelines

33. `storage_remove_metrics` runs after the state is cleared: counters never
    decrease (C38), and the last tier is emptied (C39).
34. `engine_rebalance_next` returns a stale storage name after a marked
    partition; a pipeline a,b,a never ends; a clock set back makes partitions
    infinitely old (C39).
35. ALTER STORAGE SET cloud to a missing cloud, and RENAME with a storage named
    twice in a pipeline, leave a configuration that cannot be loaded (C40).
36. `source_copy` and `source_alter` pass 64-bit settings through `int`: a refresh
    watermark of 2^32 becomes 0 (C51, C80).
37. CREATE STORAGE accepts a user supplied uuid: two storages share a directory.
38. DROP ... ON STORAGE deletes the only copy (C41).

Parsers, encodings, memory

39. JSON export does not escape; the number parser overflows; reals are printed
    into 32 bytes (C35).
40. `data_write_real` rounds doubles to float (C34).
41. Unit keywords: `min` is not recognised, `month` and `year` have wrong
    factors, products wrap (C47); five integers in a row overrun the push-back
    array (C53).
42. `uuid_from_string` ignores trailing characters (C45).
43. `compression_mgr_push` returns LZ4 contexts to the ZSTD cache (C46).
44. A page whose mmap failed stays counted; a limit that is not a whole number
    of pages is exceeded (C43); records larger than a page are written through
    NULL (C44).
45. `s3_request_encode_base64` writes 29 bytes into `digest_base64[28]`, and a long url
    or login is cut silently (C57).
46. `vfs_pread` and `vfs_write` of size 0 report an error (C56).
47. `ALTER PIPELINE SET hot ()` is refused and `hot () cold` taken; numbers of
    2^63 or more as options become negative; escapes in strings are never
    removed; `SHOW CONFIG DEBUG` reads a variable named DEBUG (C58).
48. Opening an environment that is open is only logged; `file_open_as` overwrites
    the descriptor that has the directory lock, and the directory stays locked
    until the process ends, also when retrying after a failed open (C61).
49. The answer to a request for a part of an object is not checked, neither its
    status nor its size: from a server that ignores `Range` the whole object is
    taken for the region (C62).
50. The message for HTTP errors in `s3_request_execute` is given four arguments
    for two conversions: it shows the length of the cloud's name as the status
    and the name as the text (C62).
51. `SHOW CONFIG clouds` and `SHOW CONFIG storages` answer with the passwords and
    encryption keys that `SHOW CLOUDS` and `SHOW STORAGES` leave out: the two
    variables are hidden (VAR_H) but not secret (VAR_S), and `execute_show_op`
    refuses only secret ones (C63).
52. `SHOW` writes strings without escapes, so a name, path or url with a quote or
    backslash makes the answer unreadable as JSON, and ids of 2^63 or more are
    shown as negative numbers (C64).
53. `logger_write` adds the number that `snprintf` returns to its offset, which is the
    size of the whole text also when it was cut: a message of more than about 1000
    bytes (an error that quotes a long name from a command) makes it store past the
    end of its buffer on the stack and write what is there to the log (C65).
54. `buf_reserve` computes twice the capacity as an `int`: a full buffer of 2^30 bytes
    or more, for instance for a region with `region_size` above 1 GiB, overflows when
    it has to grow. The total in `Iov` overflows for a batch of 2^31 bytes (C67).
55. `random_open` does not check that the seed is not zero (it may be, with the chance
    of 2^-128, or if /dev/urandom is not read and both numbers of `rand()` match the
    time and process). The generator then gives only zeroes, and CREATE STORAGE with
    an encryption and without a key never returns. `random_generate_alnum` asked for
    no bytes writes past the end of its array (C68).
56. The keys of encrypted storages, and the initialisation vectors that are stored in
    the clear in front of the data, are outputs of one generator whose step is linear
    (C68 has the polynomial). It is not meant for secrets: two words of state decide
    everything that comes before and after.
57. `worker_mgr_start` stores the number of workers before it has them. If the array
    cannot be allocated or a thread cannot be created, monotone_open fails, and the
    monotone_free that has to follow uses NULL or joins threads that were never
    created. A second successful monotone_open (with another directory) forgets the
    first workers: they are not waited for and use freed memory (C69).
58. CREATE STORAGE with the option `uuid` does not look whether the uuid is in use.
    Two storages with the same uuid and path have the same directory: partition
    files of one are those of the other, recovery finds each of them twice (C70).
59. No result of snprintf is looked at where paths are made. In a directory with a
    name of 4050 bytes all partition files have the same path; with 4083 bytes
    `config.json.old` is `config.json`, and saving the configuration removes it
    (C70).
60. Partition locks are taken again by a thread that has them, and the first release
    gives them up (item on C31). REFRESH of the partition the thread's own cursor is
    in frees what the cursor reads. A write to the partition of the thread's own
    cursor gives the cursor's lock up, and the next refresh by a worker frees the
    partition under the cursor. A batch with two events in one partition gives the
    lock up at the commit of the first, and the commit of the second may use the
    partition after a worker has freed it (C71).
61. The order of the log is not always the order of the changes. A batch with two
    events in one partition releases the partition's lock twice, the second time that
    of another writer, whose event can then be overwritten and logged after its
    successor: after a restart the older value is back. engine_drop_reference writes
    LOG_DROP after control_unlock: a partition that is created again and written to
    in between is removed again at the next start, with a write that had returned (C72).
62. A command that cannot write the configuration file reports an error but stays done
    in memory, and the next command that succeeds saves it. An ALTER STORAGE that
    cannot use its new cloud has already detached the old one (for S3: deleted the
    bucket): the storage has no cloud any more (C73). A refused CREATE STORAGE leaves
    its directory behind.
63. Some data is touched by two threads at once (C74). SHOW reads states, indexes and
    memtable sizes under the engine mutex, which writes, DROP ... ON STORAGE and
    downloads do not take for them. A download reads the index from the new file
    straight into `part->index`, before it has checked it and under the service lock
    only, while cursors read it; a bad download also spoils the index of a partition
    that is fine in the cloud. The refresh mark is changed under the access lock by
    writes and under the mutex by rebalancing, so that a refresh may be scheduled
    twice.
64. A download replaces `part->index` by what it got before checking it (C75). If the
    check fails the download reports an error, but the partition, which is still read
    from the cloud, is read with the damaged index: events disappear, or readers leave
    the index data. The file with the damaged footer stays under its final name. Its
    descriptor stays open, and the next download overwrites it without closing it. A
    download that fails when it opens its file and another one that fails on its way
    leave a complete file, an incomplete file and a cloud file together, a combination
    that engine_recover_validate refuses, so that the database cannot be opened.
65. `parse` has no guard on the command while it looks for the end of the text (C76).
    If the tokenizer throws there, as in `checkpoint 'a`, the command and everything
    it has is lost.
66. `parse_storage_create` makes a key with `str_strndup` when the key is empty, without
    `str_free` (C76). An empty key that was given, `encryption_key ''`, is an
    allocated block, and is lost.
67. `encryption_aes_decrypt` does not check that there are 32 bytes for vector and tag
    (C77): it reads past the data, and passes a negative length to OpenSSL.
68. `compression_lz4_decompress` calls the decoder until all data is taken (C77). If the
    data has more content than the index says, the buffer is full and the loop never
    ends.
69. In Release builds neither `compression_lz4_decompress` nor
    `compression_zstd_decompress` checks the size of the result (C77): if it is too
    small, the rest of the region is what was in the buffer before, such as another
    region.
70. `compression_zstd_compress` sets the level only if it is positive, and contexts are
    kept with their parameters (C77): a storage with the default level is compressed
    with the level of the storage that used the context before.
71. `part_iterator_next` moves the index iterator before it reads the region (C78). If
    the read fails and the application calls `monotone_next` again, the region is
    passed over: the call succeeds and its events are missing.
72. If the next partition cannot be opened in full, `engine_cursor_next` leaves the
    cursor in it with the sources added so far (C78). When `monotone_next` is called
    again it succeeds, and the events in the file of that partition are missing.
73. `merge_iterator_next` clears `current` only after all sources were advanced (C78).
    After a failed `monotone_next`, `monotone_read` may return 1 with an event that
    comes later, or with a version that was replaced.
74. `wal_rotate` calls `wal_id_add` with the mutex of the log held and no guard
    (C79). If the list of files cannot grow, the mutex is kept: every later write
    hangs, with the lock of its partition.
75. `engine_rebalance_tier` copies the name of a storage with the mutex of the engine
    held and no guard (C79). If the copy fails, the engine is locked for good.
76. `engine_commit` runs after the block whose errors are caught (C79). If the request
    for a refresh cannot be allocated, the locks of this record and of those after it
    are kept, the log is not freed, and a batch that is in the log and in memory is
    reported as failed.
77. A batch without events whose log write fails is rolled back like any other (C79):
    `log_last` of an empty log is in front of NULL, and engine_rollback reads there.
78. ALTER STORAGE SET (encryption 'aes') makes no key, as CREATE STORAGE does, and
    encryption_key '' takes the key away (C80). Both are accepted; every refresh of a
    partition of the storage fails from then on.
79. A key or path whose ALTER STORAGE fails because the configuration file cannot be
    written stays in use (C80). Files written then are lost at the next start: with a
    key the environment does not open, with a path the partition is missing silently.
80. ALTER STORAGE SET (cloud 'x') with a cloud that is missing is refused, but the
    storage keeps the name (C80). The next command that succeeds writes it to
    config.json, and the environment does not open any more. If the cloud is there and
    cannot be attached, the cloud can be dropped, with the same end.
81. With mm_limit and the behaviour "block", a writer waits for memory while it holds
    the lock of its partition (C81). If the memory is in that partition it waits for
    ever: a refresh needs the lock, and nothing asks for one while somebody waits,
    since refreshes are requested at commit. With a limit below what the log needs
    `monotone_open` hangs: the log is replayed before the workers start.
82. With mm_cache 0 `memory_mgr_push` unmaps the pages and wakes nobody (C81). A writer
    that waits for memory waits for ever though nothing is in use. The same happens to
    any pages given back while the cache is full, if mm_cache is below mm_limit_wm.
83. DEBUG MEMORY_GC unmaps free pages while a writer has just been woken for them
    (C81). The writer looks at the free list only, not at the limit again, and goes back
    to sleep though there is room.
84. DROP PARTITIONS BETWEEN 100 AND 18446744073709551615, with a partition that ends at
    the last id, drops partitions before 100 as well (C82, C42): the position after the
    last id is 0 and the loop starts over. MOVE, REFRESH, DOWNLOAD and UPLOAD of such a
    range never end.
85. MOVE PARTITION into a storage that does not exist is refused, but the partition has
    been downloaded and removed from the cloud before (C82).
86. MOVE, UPLOAD and DOWNLOAD PARTITIONS stop at the first partition that is refused;
    those before are done, those after not (C82).
87. MOVE PARTITION into the storage where it is, with a cloud, is refused while nothing
    of it has been written: "file does not exist locally" (C82).
88. ALTER CLOUD SET (login ''), and the same with password and url, is accepted for an s3
    cloud; opening the environment then fails with "s3: access_key is not defined" (C83).
    Only CREATE CLOUD checks the settings.
89. ALTER PIPELINE may name a storage twice if another one is in between; ALTER STORAGE
    RENAME then changes only the first tier, and the environment does not open again:
    "storage 'x': not exists" (C83).
90. When a crash leaves a log file with nothing but a torn record, wal_rotate gives the
    new file the number of the old one: the file is opened again at its beginning and
    not truncated, its id is in the list twice, and a shorter record leaves torn bytes
    behind it, so that the next start may fail with a crc mismatch (C84).
91. A cursor opened at an event that is in the database may return that event and then
    end, though later events are there (C85): the event is in memory, the partition file
    has an earlier event of the same id at the end of a region, and the file iterator
    stops there instead of going on to the next region (see C12).
92. When the last partition was dropped and the log was rotated and cleaned, nothing on
    disk holds the last number any more: after a restart the numbers begin at 1 again,
    below the number of the current log file. The next log file then gets a smaller
    number than the current one, is read before it at the next restart, and older
    versions of keys win (C86).
93. In the same situation, when the numbers reach the one of the current log file,
    wal_rotate opens that file a second time, at its beginning and without truncating it
    (file_create): the next batches overwrite the committed records in it
    (C86_same_number shows how it is reached; the model stops there). The same happens
    without batches: drop, rotate, restart (the drop is logged again in the new, empty
    file, with a number below the one of the file), rotate.
94. The encryption key made by CREATE STORAGE is drawn from xorshift128+ right after the
    uuid of the storage, which names its directory and its objects in the cloud. The
    uuid leaves at most 2^26 keys; the random bytes in the clear before each encrypted
    region tell the state of the generator in the same way, and so all keys made by
    the process before or after (C87).
95. A loop over a cursor that writes a new value for the event it is on reads some events
    twice: the new version goes to the table that takes the writes, whose iterator is
    still ahead of it if that table holds a later event, and the merge shows it as the
    next event. Events in the file or in the rotated table are affected, those already
    in the table are not (C88).
96. monotone_read after deleting the event under the cursor returns 0, which is also the
    end of the cursor, if the event was in the table that takes the writes; if it was in
    the file or in the rotated table it still returns the deleted event (C88).
97. The error of an S3 request that the server refuses shows no status: the format is
    `s3: HTTP %d (%s)`, the arguments begin with the size and the text of the cloud's name
    (s3_request.c:258). A cloud `minio` gives `s3: HTTP 5 (minio)` for every refusal (C89).
98. The debug callback of libcurl passes a size_t as the precision of `%.*s`
    (s3_request.c:160), which takes an int: undefined (C89). With debugging on it also
    writes the Authorization header to the log.
99. Requests other than GET set no write function, so libcurl prints the body of an
    answer that is not an error to the standard output of the application (s3_op.c). No
    request has a timeout.
100. Opening a cursor at a key can read two regions. When the key is after the last
    event of its id in the file, the region of that id is read and decompressed, nothing
    of it is at or after the key, and the first region of the next partition is read as
    well; the rest of the first file is skipped (C12, C91).
101. monotone_cursor that gets no memory for the handle returns NULL with an empty
    error text; monotone_init returns NULL with the text of an earlier call of the
    thread (C92).
102. The command SERVICE returns 0 when the request it executed failed; the error is
    caught in engine_service and only left as the text of monotone_error (C92).
103. monotone_free is meant to detect a handle that was freed before, by the type it
    left in its memory, but that memory is not allocated any more: the test reads freed
    memory, or the handle of somebody else at the same address. Freeing a cursor after
    its environment uses the freed environment (C92).
104. refresh_end forgets the old partition when the first rename fails: its memory and
    the descriptor of its file are never released (C93).
105. wal_rotate does not close the old file when its sync fails (C93).
106. When the recovery fails at the index of a partition, the partition is in the list
    of its storage but has no reference; engine_close frees only references, so that
    its memory and its descriptor are lost after monotone_free (C93).
107. ALTER CLOUD SET (url …) is accepted while storages have partitions in the cloud,
    although the same storages refuse a change of their cloud ("some partitions are still
    remain on the cloud"). The partitions are looked for at the new url and not found,
    and their local copies may have been dropped. `C95_url_false`.
108. mock_upload opens its file with file_create, which does not truncate. If an earlier
    upload failed after it had written, or a removal was cut short, a later upload of a
    shorter file keeps the end of the older one. The file that a download brings back then
    ends with the older index: deleted events are back after a restart, or the file cannot
    be opened. mock_download and s3_download remove what was left before. `C96_false`.
