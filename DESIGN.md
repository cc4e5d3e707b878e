# DESIGN

## 1. What this is

A Lean 4 model of dargueta/disko, written function by function from the Go source in /repo, and
theorems about it.  Each directory `lean/Verif/<Part>` holds a `Model.lean` (the code; every definition
cites file and lines), specification files (`Spec.lean`, `PathSpec.lean`, or a `Spec` section at the top of
a `Props` file) that say what is wanted without using the model's helpers, lemma files, and
`Props*.lean` with the theorems `Cnn_...` listed in MANIFEST.json.  Beside each theorem an `example`
shows a concrete case that meets its hypotheses.

Naming: `Cnn_name` is proved as stated in properties.jsonl; `Cnn_..._partial` proves part of it, and
its comment says what is missing; where the property is *false of the code*, `Cnn_statement` is the full
statement as a definition and `Cnn_refuted` (or `Cnn_..._refuted`) proves its negation with a concrete
program state, so that a repair of the code would break that theorem.

disko is unfinished software: many properties its interface promises do not hold.  The refutations are
results, not gaps; the partial theorems then say what exactly the code does instead.

## 2. Trusted base

* The Lean 4.33.0 kernel.  No axioms of our own, no compiled evaluation.  `#print axioms` on every
  theorem in MANIFEST.json gives a subset of {propext, Classical.choice, Quot.sound} (last count: 3
  theorems use none, 19 only propext, 86 propext and Quot.sound, the others all three).
* That the model says what the Go code does.  This is a reading of the source, helped by: citations
  on every definition; explicit machine arithmetic; explicit panics and non-termination; examples computed
  by the kernel; seeded bugs (section 4).
* The behaviour of the Go language and standard library stated below.

### Go semantics as modelled (lean/Verif/Base)

* `uint`, `uint64`, LogicalBlock: natural numbers below 2^64, every sum, difference and product that can
  overflow is reduced (`u64`, `u64sub`); `int`, `int64`: integers wrapped by `i64`.  64-bit platforms.
  Flag words and FileMode: bit vectors.
* A call returns, panics, or has not returned within a step budget: `Outcome`.  "Does not terminate"
  is "no budget suffices".  Out-of-range slicing, nil dereference, failing type assertions and huge
  `make` are panics.  Running out of memory below the limits of `make` is not modelled.
* Slices that alias a cache's memory are windows into it (BlockCache).  Elsewhere byte slices are values.
* Single-threaded: the code starts no goroutines and has no locks; concurrent use is outside the model.
* Strings are byte lists (Disks: character lists).

### Library assumptions

* io.Reader, io.Writer contracts (`Src`, `Sink.law`); bufio delivers the same bytes; compress/gzip is some
  lossless codec (structure `Gzip`); go-bitmap as documented (room rounded up to 8 bits, panics beyond);
  os.File by `LawfulFile`; errors.Is and multierror by their documented search; encoding/csv, csvutil as far as
  the geometry table uses them; binary.Read panics on unexported struct fields and reads little-endian
  fields in order; time.Date panics on a nil location; path.Clean, Join, Split by their source (Base/Path).

## 3. Modelled and not modelled, file by file

| file in /repo | model | not modelled |
|---|---|---|
| utilities/compression/rle_grouper.go, rle8.go, compression.go | Compression: all functions | buffering; gzip itself |
| file_systems/common/blockcache/blockcache.go | BlockCache: all methods, WrapStream, WrapStreamWithInferredSize, WrapSlice (Wrap.lean: over any io.ReadWriteSeeker; the bytesextra stream of WrapSlice as a model of that library) | text of error messages |
| file_systems/common/basicstream/basicstream.go | Stream: all methods | text of error messages |
| testing/blockcache.go, testing/images.go | Testing/Model.lean | the contents of random images; callbacks slicing an image shorter than documented (a panic) |
| file_systems/common/types.go | LogicalBlock as natural number; Truncator as a Boolean; init constants where used | unused types |
| flags.go, errors.go, api.go (FileStat, MountFlags predicates) | Flags: all functions | — |
| api.go (interfaces) | parameters of the Driver model | interfaces nothing in /repo calls (boot code, volume label) |
| driver/driver.go, file.go, dirent.go, fsobject.go | Driver: all functions, in three configurations (see Model.lean); histories of calls (History.lean) | error messages |
| driver/nopobject.go | Driver/Nop (every method) | C116. Chtimes returns the plain error type, so it does not satisfy SupportsChtimesHandle; that is a matter of types and not modelled |
| file_systems/fat8/*.go | Fat8: all functions (names of any bytes in Names.lean; paths given to Stat and names given to SameFile only as ASCII) | messages |
| file_systems/fat/common.go, dirent.go, driverbase.go | Fat: all functions, over an arbitrary version-specific driver | messages; the five methods that only return ErrNotSupported; fat12/16/32.go contain no code to model |
| file_systems/unixv6/dirents.go | UnixV6: all functions | — |
| disks/disks.go, disk-geometries.csv | Disks: all functions, the whole table | — |
| file_systems/common/init.sql | Sql: tables, constraints, cascades and both triggers (no Go code in /repo runs the script). Trusted: the SQLite behaviour listed at the head of Verif/Sql/Model.lean | changes of a primary key, INSERT OR REPLACE, NULL link counts |
| cmd/zipimage, cmd/unzipimage | Cmd | closing the files; messages |
| cmd/main.go | — | runs the cli library with an action that does nothing |

The driver as shipped drops every object handle (fsobject.go:16-22, marked FIXME in the source), so
nearly every operation panics.  To say anything about the rest of driver.go the Driver model has a
configuration: `shipped` is the code as it is; in `keeping` wrapObjectHandle stores the handle (the line
that is commented out); in `passing` the wrapper also passes optional interfaces on.  Theorems name the
configuration they are about; unless they say `shipped` or quantify over the configuration, they are about a repaired
wrapper, and are marked partial.

## 4. Seeded bugs

`tools/mutate.py` edits a scratch copy of the model the way a bug would change the program, rebuilds and
records in `seeded/LOG.jsonl` which theorems failed.  Entries with a non-empty "tightened" led to stronger
theorems.  Surviving edits carry a note saying why the claim is still true of the edited program.

## 5. Property by property

For each property: how it is modelled and proved; then its status with what is missing or false of the code, and the names of the theorems (without namespace).

- **C01 RLE8 round trip.** Induction over the maximal runs; the key fact is that the code of a run cannot be confused with the next byte. *proved.* For every byte string, including runs cut at math.MaxInt. [C01_rle8_roundtrip]
- **C02 Run grouper returns the maximal runs.** `RunsOf` (flatten, non-empty, neighbours differ) is unique; induction on the remaining input. *proved.* Runs are exactly the (unique) maximal runs; read errors are reported with the runs before them. [C02_runs_maximal, C02_read_error, C02_read_error_exact]
- **C03 Compression byte counts and failed outputs.** Generic writer that records what it accepted; invariant of the writer loops. *proved.* All four functions, any writer obeying the io.Writer contract, any reader. [C03_compressRLE8, C03_compressRLERecursive, C03_decompressRLERecursive, C03_decompressRLE8]
- **C04 DecompressRLE8 rejects exactly the truncated encodings.** Independent grammar of encodings; the decoder loop is refined to it. *proved.* Against an independent grammar of RLE8. [C04_decompressRLE8_total, C04_accepts_iff, C04_read_error_reported]
- **C05 RLE8 output size.** Length of the code of a run; arithmetic. *proved.* Exact size by maximal runs, plus both bounds. [C05_rle8_size, C05_rle8_worst_case, C05_rle8_single_run]
- **C06 Recursive RLE encoding is decodable.** Reference reader written from doc.go; induction on runs. *proved.* Against an independent grammar and reference reader for the recursive format. [C06_rrle_decodable, C06_rrle_injective, C06_rrle_unambiguous, C06_same_as_rle8]
- **C07 DecompressRLERecursive inverts CompressRLERecursive.** Witness; exact class of inputs on which it holds. *partial.* FALSE of the code: DecompressRLERecursive is a copy of the compressor (C07_refuted). Proved: exactly the inputs whose maximal runs are single bytes or 1,1,1 come back (C07_exact_partial); the output is always an encoding of the input (C07_decompressor_compresses). [C07_refuted, C07_decompressor_compresses, C07_roundtrip_partial, C07_exact_partial, C07_runs_exist]
- **C08 Compressed image round trip.** Composition of C01 with any lossless codec. *proved.* For every lossless gzip (library assumption recorded in structure Gzip). [C08_compress_size, C08_image_roundtrip, C08_toBytes_errors, C08_decompress_delivers]
- **C09 Block cache behaves like a flat array of blocks.** BlockCache model over an arbitrary backend; refinement of every history of calls to a flat byte array. *proved.* Any history from New over any lawful, possibly failing storage; results equal those of a flat byte array, and every error is justified. [C09_flat_array, C09_errors_justified]
- **C10 Flush makes the cache durable.** BlockCache model over an arbitrary backend; refinement of every history of calls to a flat byte array. *proved.* Any history, including failed flushes before. [C10_flush_durable]
- **C11 Block cache bounds checks are exact.** BlockCache model over an arbitrary backend; refinement of every history of calls to a flat byte array. *partial.* Proved for ReadAt and WriteAt. FALSE for GetSlice/MarkBlockRangeDirty when count*bytesPerBlock wraps (C11_slices_refuted); proved for them below 2^63 bytes. [C11_readAt_exact, C11_writeAt_exact, C11_slices_refuted, C11_slices_exact_partial]
- **C12 Failed cache operations change nothing.** BlockCache model over an arbitrary backend; refinement of every history of calls to a flat byte array. *proved.* Results after a failed call are those of the history without it; dirty blocks stay dirty or are stored. [C12_error_changes_nothing, C12_nothing_forgotten]
- **C13 Callback guarantees.** BlockCache model over a backend that logs its calls; induction over histories. *proved.* For every callback invocation in every history. [C13_callback_arguments]
- **C14 A block is fetched at most once.** BlockCache model over a backend that logs its calls; induction over histories. *proved.* Stronger than stated: once in the whole life of the cache, resizes included. [C14_fetched_at_most_once, C14_modified_not_fetched]
- **C15 Flush writes dirty blocks, only dirty blocks, once.** BlockCache model over a backend that logs its calls; induction over histories. *proved.* Pending blocks are computed from the history by an independent ghost function. [C15_flush_writes_pending]
- **C16 Resize keeps the prefix and appends zeros.** BlockCache model over an arbitrary backend; refinement of every history of calls to a flat byte array. *proved.* Includes shrink-then-grow, Size and failure. [C16_resize, C16_shrink_grow]
- **C17 ReadAt reports the number of bytes placed in the buffer.** BlockCache model over an arbitrary backend; refinement of every history of calls to a flat byte array. Witness for the false part, exact side condition for the rest. *partial.* FALSE of the code: the count is rounded up to whole blocks (C17_refuted). Proved for whole-block buffers, with the exact rounding in general. [C17_refuted, C17_count_partial]
- **C18 GetMinBlocksForSize is the exact ceiling.** BlockCache model over an arbitrary backend; refinement of every history of calls to a flat byte array. Witness for the false part, exact side condition for the rest. *partial.* FALSE near 2^64 (C18_refuted); C18_exact_partial: true exactly when size+bytesPerBlock does not exceed 2^64, otherwise the result is 0. [C18_refuted, C18_ceiling_partial, C18_exact_partial]
- **C19 An empty cache is a valid cache.** BlockCache model over an arbitrary backend; refinement of every history of calls to a flat byte array. Witness for the false part, exact side condition for the rest. *partial.* FALSE of the code: all three fail on an empty cache (C19_refuted). Proved for non-empty caches, and exactly: on an empty cache all three fail and change nothing; otherwise (callbacks not failing) they succeed (C19_exact_partial). [C19_refuted, C19_nonempty_partial, C19_exact_partial]
- **C20 Marking blocks dirty does not change contents.** BlockCache model over an arbitrary backend; refinement of every history of calls to a flat byte array. Witness for the false part, exact side condition for the rest. *partial.* FALSE for blocks never fetched: data loss (C20_refuted, C20_refuted_data_loss). Proved for loaded blocks, and exactly (callbacks not failing): the blocks of the range that are not in the cache become zeros, everything else stays; so the claim holds of a call iff those blocks are zero in storage (C20_exact_partial). [C20_refuted, C20_refuted_data_loss, C20_loaded_partial, C20_exact_partial]
- **C21 A wrapped stream can be grown.** BlockCache model over an arbitrary backend; refinement of every history of calls to a flat byte array. Witness for the false part, exact side condition for the rest. *partial.* FALSE of the code: WrapStream's callbacks keep the original block count (C21_refuted). Proved for streams not grown, the wrapped stream obeys the callback contract, and exactly when Flush succeeds after any history (C21_exact_partial). [C21_wrapStream_lawful, C21_refuted, C21_wrapped_stream_partial, C21_exact_partial]
- **C22 Interrupted flush leaves every block old or new.** Crash = a flush callback that does not succeed and may leave garbage in its block; induction over the flush loop. *proved.* Crashes are modelled as a callback that does not succeed and may leave garbage in the block it was writing. [C22_interrupted_flush]
- **C23 Stream reads return exactly the file's bytes.** Stream model on top of the block cache; invariant of every reachable stream, contents seen as one byte list. *proved.* Any reachable stream (any cache history, any sequence of stream calls), any buffer and offset. [C23_open, C23_readAt]
- **C24 Sequential reads make progress.** Stream model on top of the block cache; invariant of every reachable stream, contents seen as one byte list. *partial.* FALSE of the code: a read returning data with io.EOF does not advance (C24_refuted). Partial: reads that return nil, and sequences of them. [C24_refuted, C24_read_partial, C24_sequence_partial]
- **C25 Access mode is enforced.** Stream model on top of the block cache; invariant of every reachable stream, contents seen as one byte list. *proved.* Any history of calls after opening. C25_refused: also a read-only stream that was not reached through the API refuses every writing call with count 0. [C25_readonly, C25_writeonly, C25_refused, C25_flags]
- **C26 Append mode.** Stream model on top of the block cache; invariant of every reachable stream, contents seen as one byte list. *partial.* WriteAt refusal and independence of the position proved. FALSE: the size is not updated when the data ends inside the last block (C26_refuted). Partial: where the bytes go, and the full statement when the data reaches the end of the object. [C26_refuted, C26_writeAt_refused, C26_position_irrelevant, C26_append_partial]
- **C27 Seek arithmetic.** Stream model on top of the block cache; invariant of every reachable stream, contents seen as one byte list. *proved.* Exact integer arithmetic, including int64 overflow; position in range in every history. [C27_seek, C27_position]
- **C28 Truncate keeps the prefix and extends with zeros.** Stream model on top of the block cache; invariant of every reachable stream, contents seen as one byte list. *partial.* FALSE: growing inside the last block uncovers old bytes (C28_refuted). Partial: size, prefix, zeros beyond the last block, full statement for files that fill their blocks; failures change nothing without O_SYNC. C28_exact_partial: the file after every successful Truncate, byte by byte: the first n bytes of the whole cached object, then zeros. [C28_refuted, C28_truncate_partial, C28_exact_partial]
- **C29 Write then read back.** Stream model on top of the block cache; invariant of every reachable stream, contents seen as one byte list. *partial.* FALSE: overwriting in the middle of a file fails (C29_refuted). Partial: read back after nil; the exact condition under which a write succeeds. [C29_refuted, C29_readback_partial, C29_success_partial, C29_first_block_partial]
- **C30 Written data reaches the storage on Sync.** Stream model on top of the block cache; invariant of every reachable stream, contents seen as one byte list. *partial.* FALSE: existing blocks are not marked dirty; with O_SYNC not even new ones (C30_refuted). Partial: exactly which bytes reach the storage (C30_exact_partial, C30_osync_exact_partial): written ones in added or already dirty blocks, without O_SYNC; old ones elsewhere; zeros in blocks added with O_SYNC. [C30_refuted, C30_stored_partial, C30_osync_partial, C30_exact_partial, C30_osync_exact_partial]
- **C31 Writing past the end extends the file.** Stream model on top of the block cache; invariant of every reachable stream, contents seen as one byte list. *partial.* FALSE: a write ending inside the last block does not change the size (C31_refuted). Partial: the other writes. [C31_refuted, C31_size_partial]
- **C32 WriteTo copies the rest of the stream once.** Stream model on top of the block cache; invariant of every reachable stream, contents seen as one byte list. *partial.* FALSE: the writer's errors are ignored (C32_refuted). Partial: pieces, order, count, termination, for any writer; exactly (C32_exact_partial): with reliable storage WriteTo always hands over the whole rest and returns its length and nil, whatever the writer does. [C32_refuted, C32_writeTo_partial, C32_accepted_partial, C32_exact_partial]
- **C33 ReadFrom reports what it stored.** Stream model on top of the block cache; invariant of every reachable stream, contents seen as one byte list. *partial.* FALSE: the Write error is lost when data arrives with io.EOF (C33_refuted). Partial: readers that never return data with an error. C33_exact_partial: for any reader and any result, all delivered chunks are written in order and counted, which of the three ways ReadFrom stopped, and that only the error of the last Write can be lost. [C33_refuted, C33_readFrom_partial, C33_exact_partial]
- **C34 Empty files can be synced and closed.** Stream model on top of the block cache; invariant of every reachable stream, contents seen as one byte list. *partial.* FALSE: Sync/Close on an object of 0 blocks, and O_TRUNC|O_SYNC, fail (C34_refuted). Exactly: with reliable callbacks Sync succeeds iff the object has a block (C34_sync_exact_partial); O_TRUNC with O_SYNC always reports an error, after emptying the file (C34_truncate_sync_partial); O_TRUNC without O_SYNC fails only if the resize callback does. [C34_refuted, C34_sync_partial, C34_truncate_partial, C34_truncate_sync_partial, C34_sync_exact_partial]
- **C35 OS open flags are translated faithfully.** Bit vectors; facts bit by bit for all values. *proved.* All 64-bit values, Linux os.O_* constants; nothing else is set. The undefined access mode 3 maps to read-only. C35_predicates: every Disko flag word; with both access bits set neither Read nor Write holds. [C35_flags_faithful, C35_predicates]
- **C36 File type predicates are consistent.** Bit vectors; facts bit by bit for all values. *proved.* All 32-bit modes; the three predicates are exclusive even without the at-most-one-type-bit assumption. [C36_type_predicates, C36_permissions_irrelevant]
- **C37 Error identity survives wrapping.** Errors as an inductive type; errors.Is as search; induction on the chain of wrappings. *proved.* Any chain; a wrapped *multierror.Error is flattened, so its elements (not the pointer) match (C37_flattened). C37_new: NewError. [C37_identity_kept, C37_flattened, C37_no_false_match, C37_sentinels_distinct, C37_new]
- **C38 Error messages.** Errors as an inductive type; errors.Is as search; induction on the chain of wrappings. *proved.* Sentinels; foreign errors are wrapped with the message ': <msg>' by CastToDriverError, which the property does not forbid. C38_made: every error the package makes; C38_new, C38_new_drops: NewError(m).WithMessage(x) is "x", not "m: x". C38_cast_others: what is not a DriverError is wrapped. [C38_message, C38_cast, C38_cast_others, C38_made, C38_new, C38_new_drops]
- **C39 FAT8 geometry.** Pure function of the block count, case analysis. *proved.* Every block count. [C39_supported_sizes, C39_layout, C39_formats]
- **C40 FAT8 format layout.** Fat8 model over an arbitrary os.File; effects stated byte by byte on the image, histories by induction. *proved.* Any lawful file; requires Truncate to work (its result is ignored by the code, see C70). [C40_format_blank, C40_format_succeeds, C40_format_rejects]
- **C41 Formatting reserves the directory.** Fat8 model over an arbitrary os.File; effects stated byte by byte on the image, histories by induction. *partial.* FALSE of the code: FAT entries are indexed by track instead of cluster (C41_refuted). Partial: exactly two clusters are reserved, all others free. C41_exact_partial: the mark of every cluster in each of the three copies. [C41_refuted, C41_two_reserved_partial, C41_exact_partial]
- **C42 A formatted FAT8 image can be mounted.** Fat8 model over an arbitrary os.File; effects stated byte by byte on the image, histories by induction. *partial.* FALSE of the code: a new driver never mounts any image (C42_refuted, C42_never_mounts). Partial: the driver that formatted can mount. [C42_never_mounts, C42_refuted, C42_formatter_mounts_partial]
- **C43 FAT8 cluster write/read round trip.** Fat8 model over an arbitrary os.File; effects stated byte by byte on the image, histories by induction. *partial.* FALSE of the code: write and read compute different offsets (C43_refuted). Exactly: after WriteAbsoluteCluster(c, data) ReadAbsoluteCluster(c) returns data if c = 1 and otherwise the old contents of c (C43_exact_partial); for files with cluster number p likewise with p = 2 and cluster p+1 (C43_file_exact_partial); writes change cluster 2c-1 and nothing else. [C43_refuted, C43_absolute_partial, C43_first_cluster_partial, C43_file_partial, C43_rejects, C43_succeeds_partial, C43_exact_partial, C43_file_exact_partial]
- **C44 FAT8 block bounds.** Fat8 model over an arbitrary os.File; effects stated byte by byte on the image, histories by induction. *partial.* Writes proved. FALSE for reads: last block unreadable (C44_read_refuted), wrap-around accepted (C44_read_overflow). Partial: exact bound of reads unless start+count wraps around 2^64. [C44_read_refuted, C44_read_overflow, C44_read_partial, C44_write]
- **C45 FAT copies are checked and kept in step.** Fat8 model over an arbitrary os.File; effects stated byte by byte on the image, histories by induction. *proved.* Any history; Flush for mounted volumes. [C45_getFAT, C45_flush]
- **C46 Free cluster list.** Fat8 model over an arbitrary os.File; effects stated byte by byte on the image, histories by induction. *partial.* FALSE of the code: entries beyond the last cluster are listed (C46_refuted), remounting duplicates (C46_remount_duplicates). Partial: what one Mount adds is exact on the clusters of the volume and has no duplicates. C46_exact_partial: the list after Mount, exactly. [C46_refuted, C46_remount_duplicates, C46_mount_partial, C46_first_mount_partial, C46_exact_partial]
- **C47 FAT8 file names round trip.** Fat8 model over an arbitrary os.File; name codec on byte lists, against a specification of the 6.3 format. *partial.* Acceptance and on-disk length proved (C47_accepts). FALSE of the code for names ending in a period (C47_refuted). C47_form_partial: what every accepted name becomes; C47_exact_partial: the upper-cased name comes back if and only if the name has no trailing spaces in stem or extension and does not end with its first period. [C47_refuted, C47_roundtrip_partial, C47_accepts, C47_form_partial, C47_exact_partial]
- **C48 Distinct names stay distinct.** Fat8 model over an arbitrary os.File; name codec on byte lists, against a specification of the 6.3 format. *partial.* FALSE of the code (C48_refuted: "AB." and "AB.."). C48_exact_partial: two accepted names share their form if and only if stem and extension, without trailing spaces, agree ignoring case (where a name ending with its first period has the extension "."). [C48_refuted, C48_distinct_partial, C48_same_partial, C48_exact_partial]
- **C49 FAT version determination.** Fat model over an arbitrary version-specific driver; arithmetic with the Go integer widths; chains as relations, loops under a budget. *proved.*  [C49_version, C49_monotone]
- **C50 Accepted boot sectors are sane.** Fat model over an arbitrary version-specific driver; arithmetic with the Go integer widths; chains as relations, loops under a budget. *partial.* FALSE of the code: every stream of at least 36 bytes makes the header read panic (unexported field; C50_every_header_panics, C50_refuted). Proved for the rest of the function: what is accepted is sane, and the exact panic condition. After the header, exactly which headers are accepted (C50_accepted_iff_partial). (Every header; if the reserved sectors exceed the rest, the count wraps around.) [C50_every_header_panics, C50_refuted, C50_short_stream_partial, C50_accepted_partial, C50_panics_iff_partial, C50_accepted_iff_partial]
- **C51 Boot sector layout arithmetic.** Fat model over an arbitrary version-specific driver; arithmetic with the Go integer widths; chains as relations, loops under a budget. *partial.* FALSE of the code: the first data sector is too small for every well-formed header (C51_first_data_sector_wrong), and the cluster count (hence the version) and the size of the root directory can be wrong (C51_*_refuted). C51_exact_partial: every value computed, for every well-formed header. [C51_computed_partial, C51_exact_partial, C51_first_data_sector_wrong, C51_refuted, C51_version_refuted, C51_root_overflow_refuted]
- **C52 Cluster chain listing.** Fat model over an arbitrary version-specific driver; arithmetic with the Go integer widths; chains as relations, loops under a budget. *proved.* For every driver that counts end marks as valid clusters; if it does not, no chain can be listed (C52_end_marks_must_be_valid). [C52_lists_chain, C52_only_chains, C52_invalid_start, C52_broken_chain, C52_end_marks_must_be_valid, C52_index, C52_index_broken]
- **C53 Corrupted (cyclic) chains are reported.** Fat model over an arbitrary version-specific driver; arithmetic with the Go integer widths; chains as relations, loops under a budget. *partial.* FALSE of the code: there is no cycle detection. Proved: listing ends if and only if the chain is not cyclic. [C53_ends_iff_acyclic_partial, C53_refuted]
- **C54 Remove frees the file's clusters.** Fat model over an arbitrary version-specific driver; arithmetic with the Go integer widths; chains as relations, loops under a budget. *partial.* FALSE of the code: no file is ever found, and a Remove that succeeds frees clusters numbered below the chain length rather than the chain. Exact effect proved. Directories are refused (C54_directory_partial); the parent passed on is the directory part of the path (C54_parent_partial). All hold for every repair of the decoding of entries. [C54_never_removes, C54_refuted, C54_what_it_frees_partial, C54_directory_partial, C54_parent_partial]
- **C55 Directory entry decoding.** Fat model over an arbitrary version-specific driver; arithmetic with the Go integer widths; chains as relations, loops under a budget. *partial.* FALSE of the code: decoding any entry panics (3-byte slice read as uint32). C55_always_panics is the complete behaviour. C55_repaired_partial: the decoder used where the other claims speak of repaired decoding is the one the specification asks for. [C55_always_panics, C55_refuted, C55_repaired_partial, C55_directory_cluster_panics]
- **C56 FAT attributes map to file types.** Fat model over an arbitrary version-specific driver; arithmetic with the Go integer widths; chains as relations, loops under a budget. *partial.* FALSE of the code for IsDir (syscall bits where os bits are tested). Permissions and the syscall-style type bits are proved for all 256 attribute bytes. [C56_never_a_directory, C56_refuted, C56_permissions_partial, C56_stat_type_partial]
- **C57 Dirent timestamps.** Fat model over an arbitrary version-specific driver; arithmetic with the Go integer widths; chains as relations, loops under a budget. *partial.* FALSE of the code for SetDeletedAt (never succeeds). Setters, getters and histories of the other calls proved. Exactly which times can be read from which entries (C57_getters_partial). [C57_deletion_time_never_set, C57_refuted, C57_setters_partial, C57_history_partial, C57_getters_partial]
- **C58 Unix v6 mode conversion.** UnixV6 model; bit fields of the inode. *proved.* Both round trips for every word/mode, exact acceptance, and the resulting type bits. The inode's 0x1000 (large file) and 0x0200 bits are outside the meaningful mask and are not preserved. [C58_fs_std_fs, C58_std_fs_std, C58_accepts_iff, C58_type_bits]
- **C59 Unix v6 inode stat.** UnixV6 model; bit fields of the inode. *proved.* For every inode: 24-bit little-endian size, exact ceiling block count, identity, owner, mode and times copied. [C59_stat]
- **C60 Disk geometry size.** Disks model: arithmetic, and the parsed table. *proved.* Size exact for all geometries with fewer than 2^63 bits (C60_size_unbounded_refuted shows the bound is needed); lookup exact for every table and every string; a table is read as written, row by row and field by field, and one with a ragged row does not load (C60_table_text, C60_ragged_refused; nor does an empty one, C60_empty_refused); the shipped table loads and equals the listed one. encoding/csv and csvutil are modelled for the features the table uses. [C60_size, C60_size_unbounded_refuted, C60_lookup_exact, C60_predefined, C60_duplicates_rejected, C60_row_text, C60_row_refused, C60_table_text, C60_ragged_refused, C60_empty_refused, C60_columns, C60_labels]
- **C61 NormalizePath yields a clean absolute path.** Driver model over an arbitrary implementation; paths are byte strings; the meaning of a path is given byte by byte in PathSpec, path.Clean and Join are proved to agree with it. *partial.* FALSE of the code: '.', '' and 'x/..' resolve to the root instead of the working directory (C61_refuted). Proved: result canonical for every string, idempotent, never above the root, absolute paths and relative paths that lead somewhere else. [C61_absolute_partial, C61_relative_partial, C61_still_partial, C61_refuted, C61_canonical, C61_idempotent, C61_render_injective]
- **C62 Path resolution terminates and finds objects.** Driver model over an arbitrary implementation; `At` says which object is at a location; resolution with a budget. *partial.* FALSE of the code as shipped: no path operation ever returns (wrapObjectHandle drops the handle; C62_refuted, C62_shipped_partial). Also false with the handle kept: paths of two or more components recurse for ever (C62_refuted_keeping, C62_deep_partial). Proved with the handle kept: the root and what is in it. [C62_shipped_partial, C62_shipped_errors_partial, C62_refuted, C62_refuted_keeping, C62_deep_partial, C62_keeping_partial, C62_missing_partial]
- **C63 Symlink cycles are detected.** Driver model over an arbitrary implementation; `LinksTo`, `Follows` describe the link graph in the root; the loop is followed along it; non-termination for every budget. *partial.* FALSE of the code: a link leading into a cycle it is not part of is followed for ever (C63_refuted; as shipped C63_refuted_shipped). With the handle kept, for links in the root: chains, cycles through the start, dangling links and the exact non-termination condition are proved. [C63_chain_partial, C63_cycle_partial, C63_dangling_partial, C63_endless_partial, C63_refuted, C63_refuted_shipped]
- **C64 Read-only mounts reject write opens.** Driver model over an arbitrary implementation; generic induction over path resolution (`Keeps`) for what calls do to the state and which errors they return. *partial.* Refusal (any configuration, any implementation) and non-refusal proved. FALSE with the handle kept: O_RDONLY|O_CREATE and Mkdir create on a read-only mount (C64_refuted, C64_refuted_mkdir). As shipped nothing else is ever returned (C64_shipped). [C64_refused_partial, C64_allowed_partial, C64_unchanged_partial, C64_refuted, C64_refuted_mkdir, C64_shipped]
- **C65 Directory listing pages.** Driver model over an arbitrary implementation; `Calls` is any sequence of ReadDir calls with any changes in between; invariant of the queue. *partial.* Paging proved for every file on a directory object, any sequence of sizes, any changes between the calls. FALSE through the driver: OpenFile refuses directories (C65_refuted). [C65_pages_partial, C65_returns_partial, C65_readdir_partial, C65_listing_partial, C65_refuted]
- **C66 Resizing a file through its handle uses bytes.** Driver model over an arbitrary implementation; the single call to Resize is exhibited; arithmetic of ceilings. *partial.* FALSE of the code: Resize is given the number of blocks (C66_refuted). Exact effect proved; enough only for 1-byte blocks or at most one byte (C66_enough_partial). [C66_exact_partial, C66_enough_partial, C66_refuted]
- **C67 Stream calls never panic.** Stream model on top of the block cache; invariant of every reachable stream, contents seen as one byte list. *partial.* FALSE: ReadAt with a negative offset panics (C67_refuted). Partial: calls with non-negative offsets and allocatable sizes. C67_readAt_exact_partial, C67_writeAt_exact_partial: for negative offsets, exactly when they panic. C67_returns_partial covers ReadFrom any reader that ends. [C67_refuted, C67_no_panic_partial, C67_returns_partial, C67_readAt_exact_partial, C67_writeAt_exact_partial]
- **C68 A failed write leaves the file as it was.** Stream model on top of the block cache; invariant of every reachable stream, contents seen as one byte list. *partial.* FALSE: a failed write at the end leaves a longer file (C68_refuted). Partial: the old bytes are kept; nothing changes when the write ends before the end of the object. C68_exact_partial: the two possible files after a failed write, byte by byte. [C68_refuted, C68_failed_write_partial, C68_exact_partial]
- **C69 Formatting gives an empty volume.** Fat8 model over an arbitrary os.File; effects stated byte by byte on the image, histories by induction. *partial.* FALSE of the code: only the directory track is written (C69_refuted). Partial: exact effect on every byte. [C69_refuted, C69_format_any_partial]
- **C70 Formatting reports failures.** Fat8 model over an arbitrary os.File; effects stated byte by byte on the image, histories by induction. *partial.* FALSE of the code: the result of Truncate is ignored (C70_refuted). Exactly (C70_exact_partial): after a reported success the directory track is complete and everything else is what Truncate left, whatever failed; the size is right iff Truncate succeeded or the image had it before. [C70_exact_partial, C70_refuted, C70_sized_partial]
- **C71 Mounted volumes are protected.** Fat8 model over an arbitrary os.File; effects stated byte by byte on the image, histories by induction. *proved.* Any history. [C71_mounted_refused, C71_mount_unmount]
- **C72 FAT8 Stat.** Fat8 model over an arbitrary os.File; effects stated byte by byte on the image, histories by induction. *partial.* FALSE of the code for text files (C72_refuted: ErrNotImplemented); proved for binary files; no history ever fills the table (C72_stat_never_finds). C72_stat_partial gives every field Stat sets. [C72_refuted, C72_stat_partial, C72_stat_never_finds]
- **C73 FAT8 FSStat.** Fat8 model over an arbitrary os.File; effects stated byte by byte on the image, histories by induction. *proved.* Any lawful file on which Truncate works. [C73_fsstat]
- **C74 Unix v6 character devices follow the os.FileMode convention.** UnixV6 model; bit fields of the inode. *partial.* False for every character device (C74_refuted, C74_refuted_everywhere): it is reported as ModeCharDevice without ModeDevice and Go's own mode for it is rejected. Proved: the other three types follow the convention. [C74_refuted, C74_refuted_everywhere, C74_other_types_partial]
- **C75 FAT timestamps decode to the recorded moment.** Fat model over an arbitrary version-specific driver; arithmetic with the Go integer widths; chains as relations, loops under a budget. *partial.* FALSE of the code: time.Date is called with a nil location, so every call panics. With a location, the values passed to it are proved to be the encoded ones, except nanoseconds (C75_hundredths_lost). [C75_always_panics, C75_refuted, C75_no_dirents, C75_date_partial, C75_timestamp_partial, C75_hundredths_lost]
- **C76 FAT ReadFile returns the file's bytes.** Fat model over an arbitrary version-specific driver; arithmetic with the Go integer widths; chains as relations, loops under a budget. *partial.* FALSE of the code: no file is ever found (C76_never_reads). The assembly of the contents from the clusters is proved when all clusters are needed; exactly (C76_assemble_exact_partial): too few clusters give a shorter file without an error, an extra cluster a panic, and so does a last cluster that yields fewer bytes than needed, as with several sectors in a cluster (C80). Directories are refused (C76_directory_partial); what ReadFile does for missing files is proved exactly (C76_missing). All hold for every repair of the decoding of entries. [C76_never_reads, C76_refuted, C76_assemble_partial, C76_extra_cluster_panics, C76_assemble_exact_partial, C76_directory_partial, C76_missing]
- **C77 FAT path lookup.** Fat model over an arbitrary version-specific driver; arithmetic with the Go integer widths; chains as relations, loops under a budget. *partial.* FALSE of the code in all three parts (C77_files_not_found, C77_missing_succeeds, C77_root_error_dropped). What Stat can return is proved. All hold for every repair of the decoding of entries. [C77_files_not_found, C77_missing_succeeds, C77_root_error_dropped, C77_absolute_paths_match_nothing, C77_refuted, C77_stat_sound_partial]
- **C78 FAT Chmod.** Fat model over an arbitrary version-specific driver; arithmetic with the Go integer widths; chains as relations, loops under a budget. *partial.* The stored mode bits are proved for every mode; the read-only attribute is never changed (C78_attribute_refuted). [C78_chmod, C78_attribute_refuted]
- **C79 FAT Chtimes.** Fat model over an arbitrary version-specific driver; arithmetic with the Go integer widths; chains as relations, loops under a budget. *partial.* FALSE of the code: errors of the setters are ignored (C79_refuted). Exact effect proved. [C79_refuted, C79_chtimes_partial]
- **C80 FAT cluster reads.** Fat model over an arbitrary version-specific driver; arithmetic with the Go integer widths; chains as relations, loops under a budget. *partial.* FALSE of the code: one sector at a wrong offset is read (C80_refuted). What is read is proved exactly. [C80_refuted, C80_what_is_read_partial]
- **C81 ReadFile returns the contents.** Driver model over an arbitrary implementation; `Means` says which location a path spells, `Found` which object it stands for; composition with the stream contents theorem. *partial.* FALSE of the code as shipped (panic: C81_refuted) and, with the handle kept, for objects below the root's children (endless recursion: C81_refuted_keeping). With the handle kept, proved for the root directory and everything reached from it by links. [C81_contents_partial, C81_io_error_partial, C81_missing_partial, C81_refuted, C81_refuted_keeping]
- **C82 Queries change nothing.** A relational invariant (state after = state before) carried through every function, by induction on the step budget. *proved.* For every configuration of the code. [C82_queries_change_nothing]
- **C83 Working directory.** Inductive set of working directories a driver can have; induction on the budget for canonical paths; a second induction on the budget with states (triples) for where the objects found are. *proved.* For every configuration of the code: canonical form after any history (C83_canonical), the iff and the errors (C83_chdir_iff_directory), where Chdir leads to (C83_where), File.Chdir (C83_file_where: where the file was found or created when it was opened). File systems are assumed to satisfy Quiet (looking up and closing change nothing). C83_reaches_root_entries: Chdir does reach directories in the root when the handle is kept. [C83_where, C83_file_where, C83_canonical, C83_chdir_iff_directory, C83_reaches_root_entries]
- **C84 Lstat does not follow links.** Driver model; link graph as relation; the loop followed along it. *partial.* FALSE of the code: Lstat follows the whole chain (C84_refuted with the handle kept; C84_refuted_shipped as shipped). What it does is proved: it describes the end of the chain, hence is right on objects that are not links. [C84_end_of_chain_partial, C84_refuted, C84_refuted_shipped]
- **C85 Readlink returns the link text.** Driver model; contents theorem for the text. *partial.* FALSE of the code as shipped (panic: C85_refuted). With the handle kept, proved for the names in the root; the refusal without link support in every configuration. [C85_unsupported, C85_text_partial, C85_not_a_link_partial, C85_missing_partial, C85_refuted]
- **C86 Remove.** Volume: laws an implementation of a tree of objects obeys (kinds at locations). Exactly one Unlink, after ListDir shows nothing but dots. *partial.* FALSE of the code even when the wrapper keeps the handle and passes on ListDir: a link is followed (C86_refuted), a path below a directory of the root never returns (C86_refuted_deep), the root is not protected (C86_root_unprotected). Proved with the wrapper repaired for files and directories in the root. [C86_file_partial, C86_special_partial, C86_missing_partial, C86_directory_partial, C86_volume_partial, C86_refuted, C86_refuted_deep, C86_keeping_directory, C86_root_unprotected]
- **C87 RemoveAll.** Induction on the depth of the tree and on the list of entries, over any Volume. *partial.* FALSE of the code: the directory itself stays (C87_refuted); with the handle kept only it panics (C87_keeping). Proved with the wrapper repaired: everything below a directory in the root, at any depth, is removed and nothing else; the root and objects that are not directories are refused and unchanged. [C87_below_partial, C87_root_partial, C87_not_a_directory_partial, C87_refuted, C87_keeping]
- **C88 Relative links.** Driver model with arbitrary implementation; contents theorem for the link text. *partial.* FALSE of the code: the text is read from the working directory (C88_refuted with the handle kept). What it does is proved (C88_from_working_directory_partial), so it is right when the working directory is the root. [C88_from_working_directory_partial, C88_refuted]
- **C89 Mkdir.** Any implementation for the call; Volume laws for the effect; DirectoryMode states the mode bit by bit. *partial.* FALSE of the code even with the wrapper repaired: CreateObject is called for names that exist, against its contract (C89_refuted), and a path below a directory of the root never returns (C89_refuted_deep). Proved with the handle kept: one CreateObject with the name, the root and exactly the mode asked for (C89_call_partial) and its effect on every volume (C89_volume_partial). Mkdir("/") asks for an object with an empty name (C89_root). [C89_call_partial, C89_volume_partial, C89_refuted, C89_deep, C89_refuted_deep, C89_root]
- **C90 MkdirAll.** As C89; non-termination by induction on fuel. *partial.* FALSE of the code: not for existing directories (C90_refuted, wrapper repaired), and a path of two or more components never returns (C90_deep, C90_refuted_deep, in every configuration). Proved with the handle kept for one component: the same call and effect as Mkdir. [C90_call_partial, C90_volume_partial, C90_deep, C90_refuted_deep, C90_refuted]
- **C91 Opening and creating files.** Resolution theorems Found/Missing for any implementation, newFile_open for opening, Volume laws for the effect. *partial.* FALSE of the code: type bits in the permissions are passed on, so a directory is made and left behind (C91_refuted, wrapper repaired), and below a directory of the root the call does not return (C91_refuted_deep, every configuration). Proved with the handle kept for files in the root. [C91_existing_partial, C91_not_a_file_partial, C91_missing_partial, C91_created_partial, C91_not_created_partial, C91_volume_partial, C91_refuted, C91_refuted_deep]
- **C92 Exclusive creation.** Same model and theorems as C91. *partial.* FALSE of the code: Create opens an existing file for writing (C92_ignored_partial for every volume, C92_refuted, wrapper repaired). [C92_ignored_partial, C92_refuted]
- **C93 Truncating.** newFile_trunc composes the block cache and the stream over the object; gives_found resolves the path. *partial.* FALSE of the code for files below a directory of the root, which never returns (C93_refuted_deep). Proved with the handle kept for what is found from the root: exactly one Resize to 0, its error passed on. [C93_open_partial, C93_truncate_partial, C93_directory_partial, C93_missing_partial, C93_refuted_deep]
- **C94 Hard links.** Any implementation; Found/Missing for both paths. *partial.* FALSE of the code: directories are linked (C94_refuted) and a name taken by a dangling link is linked over (C94_refuted_dangling), both with the handle kept. The other cases are proved with the handle kept; without hard links every call is refused in every configuration (C94_unsupported). [C94_unsupported, C94_missing_partial, C94_exists_partial, C94_call_partial, C94_refuted, C94_refuted_dangling]
- **C95 O_NOFOLLOW.** Equality of the two calls for all flags, states and fuel; a concrete link for the refutation. *partial.* FALSE of the code: the flag makes no difference to any call in any configuration (C95_ignored_partial), so the link is followed (C95_refuted, handle kept). [C95_refuted, C95_ignored_partial]
- **C96 ReadDir.** Induction over the names the implementation lists; Volume laws for completeness. *partial.* FALSE of the code: a file gives no ErrNotADirectory (C96_refuted, wrapper repaired) and a directory below a directory of the root is never listed (C96_refuted_deep, every configuration); when the handle is only kept, every ReadDir of an object that is found panics (C96_panics_partial). With the wrapper repaired: exactly the entries of the names listed (C96_listing_partial), errors passed on, and complete listings in any volume (C96_volume_partial). [C96_listing_partial, C96_list_error_partial, C96_entry_error_partial, C96_volume_partial, C96_panics_partial, C96_refuted, C96_refuted_deep]
- **C97 Attributes.** Any implementation; Found/Missing for the path; equality of the resulting state with one call of the method. *partial.* FALSE of the code: Chmod passes on type bits (C97_refuted, wrapper repaired), and when the handle is only kept nothing is ever called (C97_refuted_keeping). The rest is proved with the wrapper repaired, for what is found from the root. [C97_unsupported_partial, C97_chmod_partial, C97_chown_partial, C97_chtimes_partial, C97_undefined, C97_missing_partial, C97_lchown_partial, C97_file, C97_refuted, C97_refuted_keeping]
- **C98 Mount flags.** Equality of the calls under any two mount flags, by induction on fuel for path resolution. *partial.* FALSE of the code: Remove removes on a read-only mount (C98_refuted); twelve calls do not depend on the mount flags at all, in any configuration (C98_ignored_partial). It holds of WriteFile and Create (C98_writeFile, C98_create). Exactly, for whole programs and all calls, methods of open files included: with write permission the flags make no difference (C98_writable); without it the calls that ask to write fail and change nothing (C98_asking), and no other call depends on the flags (C98_programs_partial). [C98_ignored_partial, C98_writeFile, C98_create, C98_refuted, C98_programs_partial, C98_writable, C98_asking]
- **C99 SameFile.** SameFile is a function of two FileStat values; the specification is the implementation's SameAs over all volumes. *partial.* FALSE of the code: only inode numbers are compared, so on a file system without them all files are the same (C99_refuted). It is an equivalence relation (C99_equivalence) and right if inode numbers identify objects (C99_partial). [C99_equivalence, C99_partial, C99_refuted, C99_device_ignored]
- **C100 os.FileInfo and os.DirEntry.** path.Base is modelled and shown to give the last name of every canonical path; the rest by the fields. *partial.* FALSE of the code: Type returns the whole mode (C100_refuted), File.Stat shows the information from before the file was opened (C100_refuted_fresh, wrapper repaired), and DirectoryEntry.Stat panics (C100_stat_panics). Everything else is proved (C100_partial, C100_opened_partial). [C100_partial, C100_refuted, C100_stat_panics, C100_opened_partial, C100_refuted_fresh]
- **C101 WriteFile.** Composition of the driver with the models of the stream and the block cache, for any implementation: resizing to 0, resizing to the number of blocks, writing the blocks in order; induction over the blocks for the flush. *partial.* FALSE of the code even with the wrapper repaired: of data shorter than a block one byte arrives (C101_refuted, C101_short_partial for every implementation that keeps the contract), data that fill whole blocks, and no data, give an error and null bytes (C101_empty_partial, C101_one_block_partial), and errors of the final flush are not reported (C101_refuted_reported). Proved with the handle kept: exactly which calls are made on any implementation (C101_existing_partial, C101_missing_partial), and exactly what the file holds afterwards for data of any length (C101_contents_partial: only the first ceil(length/blocksize) bytes arrive, or that many null bytes and an error when the data fill whole blocks), for implementations where writing blocks an object does not have changes nothing. [C101_existing_partial, C101_not_emptied_partial, C101_missing_partial, C101_short_partial, C101_empty_partial, C101_one_block_partial, C101_contents_partial, C101_refuted, C101_refuted_reported]
- **C102 An operation makes only the calls it is for.** An implementation that records its calls; every function of the driver is shown to add only calls of the given kinds, by induction on the depth of the path resolution and over the frames of the stream and the block cache (Stream/Frame.lean). *proved.* The calls of an operation that panics are not recorded, and as the code is every operation on a path panics (C62), so the theorems say most about the code with the wrapper repaired; they hold for every configuration of the code. [C102_queries, C102_readDir, C102_attributes, C102_changes, C102_mkdir, C102_openFile, C102_writeFile, C102_file_read, C102_file_close, C102_file_write]
- **C103 ReadBlocks is called within the object.** A recorder of calls and states (Driver/Recording.lean); the frame of the cache says every fetch passed the bounds check, which is turned into a statement on Stat by arithmetic modulo 2^64; the reads of an open file keep the invariant that the shape of the cache fits the object. *proved.* This is the guarantee the documentation of ReadBlocks gives to file system implementers. The reads WriteFile makes itself after resizing are not covered (the object then has a different size than the cache believes, C104). [C103_queries, C103_attributes, C103_changes, C103_file]
- **C104 WriteBlocks is called within the object.** Refutation by evaluating the model in the kernel on an implementation shown to satisfy the hypotheses. The partial theorems by induction over the calls with the invariant that the cache's block size is the object's, over the length frame of the cache and stream (Stream/FrameLen.lean). *partial.* False of the code: Resize is documented in bytes and is given a number of blocks, so blocks are written beyond the end (C104_refuted: 5 bytes in blocks of 4). Proved instead: every WriteBlocks call is for exactly one block of the object's block size (C104_file_partial for all sequences of calls on an open file, C104_writeFile_partial). [C104_refuted, C104_file_partial, C104_writeFile_partial]
- **C105 Unlink is called on a directory only when it is empty.** Remove: a recorder of calls and the states they are made in. RemoveAll: an implementation that notes what is unlinked is again a volume; the induction of C87 over the depth of the tree, generalised to a relation between the states before and after; every path that is resolved at all leads to an object that exists (induction on the depth of the resolution). *proved.* This is the guarantee the documentation of Unlink gives to file system implementers. As the code is, no call of Remove or RemoveAll on a path returns (C62), so the theorems say most about the code with the wrapper repaired; they hold for every configuration. [C105_remove, C105_removeAll]
- **C106 The exit status of zipimage and unzipimage tells what happened.** Case analysis of main over a model of the host's files; os.Create changes one file and one name. *proved.* Errors of closing the output file are ignored by the code and not modelled. C106_returns: the commands panic exactly when run with an empty argument vector. [C106_usage, C106_returns, C106_status]
- **C107 What zipimage writes stands for its input.** Composition of the host model with C08, C03 and C02; the case of the same file by evaluation and in general. *partial.* False when input and output are the same file, by whatever names: os.Create empties it before it is read, and the command exits with 0 (C107_refuted, C107_same_file). Proved otherwise (C107_zip_partial, C107_success). [C107_zip_partial, C107_same_file, C107_success, C107_refuted]
- **C108 unzipimage gives back the image or leaves the output alone.** Composition of the host model with C04 and C08; the round trip composes C107_zip_partial and C108_unzip_partial. *partial.* The last part is false: the output file is emptied before the input is looked at (C108_refuted: an input that is not a gzip file). The rest is proved for different files (C108_unzip_partial, C108_roundtrip, C108_success). [C108_unzip_partial, C108_roundtrip, C108_success, C108_refuted]
- **C109 Deleting directory entries removes exactly their subtrees.** Sql model: tables as lists, cascade by recursion bounded by the engine's depth limit. The removed rows are shown to be closed under 'child of' and below the chosen rows; success by chains without repetition. *partial.* FALSE of the script: the condition of trg_deallocate_blocks names a column without NEW or OLD, so every statement that deletes entries or inodes or changes a link count fails (C109_always_refused, C109_refuted). With NEW.nlinks the property is proved (C109_repaired_partial, C109_inodes_partial). [C109_always_refused, C109_refuted, C109_repaired_partial, C109_inodes_partial]
- **C110 Link counts and the freeing of blocks follow the entries.** The triggers of a cascade are a fold over the removed rows; closed form by induction, independent of their order; invariant over all databases such a driver reaches. *partial.* FALSE of the script: nothing counts inserted entries, so deleting one of two names frees the blocks of a file still in use (C110_refuted as it is and repaired, C110_refuted_data_loss). Proved with NEW.nlinks: the exact effect of every DELETE (C110_delete_partial), and the property for drivers that add 1 with every entry they insert (C110_counting_partial). [C110_refuted, C110_refuted_data_loss, C110_delete_partial, C110_counting_partial]
- **C111 The tables never contain dangling references or duplicate keys.** Invariant over histories; deletions by the closed set of removed rows. *proved.* For the script as it is and repaired. SQLite's rules for constraints and cascades are the trusted part (head of Verif/Sql/Model.lean). C111_accepted: statements are accepted exactly if the resulting tables are sound. [C111_history, C111_accepted]
- **C112 Names are unique in every directory of the database.** From C111; counterexample of two inserts. *partial.* FALSE for the entries of a root directory without an entry of its own (FAT), whose parent is NULL: the UNIQUE constraint does not apply (C112_refuted). Proved below every entry. [C112_refuted, C112_below_partial]
- **C113 A cache over any stream behaves as the stream's bytes.** Streams as an arbitrary state with the io contracts as laws; the callbacks are shown to satisfy the block cache's callback contract, then C09 and C10. Counterexample: one block read in two parts. *partial.* FALSE for streams whose Read returns less than asked for, which io.Reader allows: the count is ignored and the rest of the block is zeros (C113_refuted). Proved for streams whose Read delivers all there is unless it fails and whose Write does not report io.EOF (C113_full_reads_partial, C113_flush_partial). [C113_full_reads_partial, C113_flush_partial, C113_refuted]
- **C114 WrapSlice serves the whole blocks of the slice and never touches the rest.** The callbacks satisfy the callback contract; the frame by a relation on the storage preserved by every callback; errors by the strengthened justification of C09 (failing blocks are within the object). *proved.* Over a model of the third-party bytesextra stream (SliceStream, sliceRWS), part of the trusted base. [C114_flat_array, C114_errors, C114_rest_untouched, C114_flush]
- **C115 The inferred size is the stream's number of whole blocks.** From the io contracts; histories from C113. *partial.* FALSE when Seek to the end fails: the error is dropped and the cache has the number of blocks of whatever offset came with it, 0 in the counterexample (C115_refuted). Proved when it succeeds (C115_size_partial). [C115_size_partial, C115_refuted]
- **C116 NopObjectHandle answers every method with ErrNotImplemented.** Case analysis on the method; counterexample: Close on the zero value. *partial.* FALSE: Close and SameAs are promoted from a nil embedded interface and panic (C116_refuted). Every other method is proved, whatever is embedded (C116_other_methods_partial). C116_panics_partial: these two panic, and no other method. [C116_refuted, C116_other_methods_partial, C116_panics_partial]
- **C117 FAT8 names have nine bytes on disk.** UTF-8 decoding as in Go's library (Fat8/Names.lean), unicode.ToUpper a parameter; decoding inverts Lean's own UTF-8 encoder; induction over characters. *partial.* FALSE: padding and upper-casing work on characters: a name with characters whose upper case is not ASCII is stored in more than nine bytes (C117_refuted for every possible unicode.ToUpper; 'né.e' takes ten). Proved: ASCII names, where the function is the one C47 and C48 speak of (C117_ascii_partial); for UTF-8 names of any characters, what is accepted and that the result is exactly nine characters (C117_characters_partial), and that it is nine bytes iff all upper-case forms are ASCII (C117_nine_bytes_iff_partial). For names of any bytes, UTF-8 or not: C117_bytes_partial (what is accepted, the stored form, and the one case in which it has fewer than nine characters). C117_reads_partial: the characters the conversion sees are those of an independent relation for UTF-8 (Reads), for any bytes. [C117_bytes_partial, C117_reads_partial, C117_refuted, C117_ascii_partial, C117_characters_partial, C117_nine_bytes_iff_partial]
- **C118 On-disk FAT8 names survive reading and writing back.** Direct: trimming and padding are inverse; counterexample FF/FE. *partial.* FALSE for bytes above 127: every byte that is not UTF-8 becomes U+FFFD, so entries that differ in such bytes have the same file name (C118_refuted, C118_same_name, for every possible unicode.ToUpper). Proved for ASCII (C118_ascii_partial), with BytesToFilename shown equal to the ASCII model there (C118_ascii_model_partial); exactly those entries of nine bytes that are ASCII, not blank, without lower case and without a period in the first six come back (C118_exact_partial). [C118_exact_partial, C118_refuted, C118_same_name, C118_ascii_model_partial, C118_ascii_partial]
- **C119 FAT SameFile.** Case analysis on what Sys() returns. *partial.* FALSE: Sys() returns the FileStat, SameFile asserts a Dirent: it panics on every pair of the driver's own entries (C119_always_panics, C119_refuted). If Sys() were the entry it would compare first clusters (C119_dirents_partial), by which all empty files are the same file (C119_empty_files). [C119_always_panics, C119_refuted, C119_dirents_partial, C119_empty_files]
- **C120 FAT TimeToTimespec.** Arithmetic of truncating division; wrap-around as residue. *partial.* FALSE outside 1677-2262, e.g. for the zero time (C120_refuted); true exactly inside (C120_range_partial), which includes every FAT timestamp (C120_fat_partial). [C120_range_partial, C120_fat_partial, C120_refuted]
- **C121 FAT8 FormatImage with FSStat options.** Residue arithmetic; composition with C40. *partial.* FALSE: with only TotalBlocks set the size is 0 and the call is refused (C121_refuted, contradicting the documentation); and 2^57+640 blocks of 128 bytes are formatted as a minifloppy (C121_wraps_refuted). Proved: it formats exactly when BlockSize*TotalBlocks modulo 2^64 is one of the three sizes, and otherwise changes nothing (C121_accepts_partial). [C121_accepts_partial, C121_refuted, C121_wraps_refuted]
- **C122 No object handle is used after it has been closed.** Each operation is related to itself under two different garbages: a relational safety judgement (SafeAt) with the invariant that files and results hold open handles; induction over fuel, directory contents and the history. *proved.* Handles are numbered when they are given out; a ghost state records which numbers are closed and whether a method other than Close was called on a closed one. Root handles have no number (an implementation may return the same one every time) and are exempt. Close itself is called twice on some handles, which api.go allows. If a call panics, what it did before is not looked at: the program is dead. [C122_no_use_after_close]
- **C123 Every operation closes the handles it gets.** Judgement Tidy (all handles given out or passed in are closed, but the one the result holds), composed over the monad; induction over fuel, directory contents and the history. *partial.* FALSE: Chmod, Chown, Lchown, Chtimes, WriteFile and Link leave handles open, and closing a file never closes its handle (C123_leaks, C123_refuted, C123_files_stay_open: whatever a program does, each file it ever opened keeps its handle open). Proved for any sequence of the other operations and all methods of open files (C123_tidy_partial), when wrapping keeps the handle (keepHandle); as shipped, operations on paths do not return at all (C62). Exactly what leaks, for every implementation, path and state: the handle Open would give (Chmod, Chown, Chtimes, WriteFile, opening and closing: C123_leak_exact_partial), for directories too (C123_leak_stat_partial), the last handle for Lchown (C123_lchown_leak_partial), the old file's and the new link's for Link (C123_link_leak_partial). [C123_tidy_partial, C123_files_stay_open, C123_leaks, C123_refuted, C123_leak_exact_partial, C123_leak_stat_partial, C123_lchown_leak_partial, C123_link_leak_partial]
- **C124 Caching is invisible.** Simulation: the relation Twin (both streams meet the invariant; equal size, position, flags, contents) is preserved by every call and forces equal answers; induction over the history. *proved.* Callbacks are assumed not to fail (with failing callbacks a cached block does hide a failure). Numbers in the calls are bounded so that sizes do not wrap. [C124_cache_invisible, C124_queries_invisible]
- **C125 On a read-only mount no data is ever written.** Frame argument: a relation between states closed under the calls of the implementation that are allowed; invariant of the open files: not open for writing, and no dirty block in the cache; induction over the history. *proved.* The operations on paths that do not look at the mount flags are listed in Justified; C64 is about them. If a call panics, what it did before is not looked at. [C125_readonly_history, C125_no_data_written]
- **C126 A program that only asks changes nothing.** As C125, with equality of states. *proved.* The history version of C82. [C126_queries_history]
- **C127 Open files do not interfere.** Histories (Driver/History.lean) with any number of files; simulation of the stream operations in states with the same contents of the object (Stream/Sim.lean); a frame argument for all other calls (Driver/Isolation.lean), by induction on the history. *proved.*  [C127_isolation]
- **C128 Two open files of one object agree.** Refutation by a concrete program; the positive part from C127 and the simulation of stream operations. *partial.* FALSE also with wrapObjectHandle repaired: each open file has a cache and a size of its own (C128_refuted: after Truncate and Sync through one file the other still reads the old number of bytes). Partial: files open for reading agree, however calls are interleaved, while nothing open for writing is of the object. [C128_readers_agree_partial, C128_refuted]
- **C129 The default test cache is a faithful, guarded disk.** The callbacks obey the contract of C09; complaints are related to the log of callback invocations by a simulation (Testing/Lemmas.lean), then induction on the history. *proved.*  [C129_flat_array, C129_writable_never_complains, C129_read_only_complaints, C129_read_only_caught, C129_image, C129_flush, C129_resize]
- **C130 Loading a compressed disk image.** From C08 (round trip of images, exact errors), and C115 with a proof that the stream over a slice obeys the io contracts. *proved.* gzip is abstract (lossless, rejects empty input); bytesextra's stream is modelled from its documentation. [C130_exact, C130_roundtrip, C130_cache]
- **C131 Directory entries are made as the disk describes them.** Unfolding with lemmas about trimming padded fields, joining 16-bit halves and C75; the specification (Padded, shown, firstChar, Described) does not use the model's functions. *partial.* FALSE of the code: every call panics, because time.Date is given a nil location (C131_refuted). Proved with a time zone supplied: every entry in use or deleted is described exactly (C131_entry_partial), end marks give 'not found' (C131_end_mark_partial), each 8- or 3-byte field holds exactly one text so the cases are exhaustive (C131_every_field); blank names and clusters of no bytes panic even then (C131_panics). [C131_every_field, C131_always_panics, C131_refuted, C131_entry_partial, C131_end_mark_partial, C131_panics]
- **C132 Readdir lists a directory.** Inductive specifications of slots, clusters and chains (Slots, Holds, DirHolds); induction on them against the loops. *partial.* FALSE of the code: as shipped every directory panics (C132_refuted), and even with decoding repaired a directory whose last cluster is full cannot be listed or looked up (C132_repaired_refuted, C132_full_directory_fails), and clusters of several sectors can panic (C132_short_cluster_panics). Proved for every repair of decoding: directories with an end mark are listed exactly (C132_lists_partial). [C132_lists_partial, C132_full_directory_fails, C132_short_cluster_panics, C132_refuted, C132_repaired_refuted]
- **C133 Paths below the root directory.** Inductive specification LeadsTo; induction on it; facts about Clean and SplitList on names glued with a separator. *partial.* FALSE of the code even with decoding repaired (C133_refuted): the path is split with filepath.SplitList, which splits at ':', so no path with a slash is followed (C133_slashes_find_nothing) and missing names are ignored (C133_missing_name_ignored). Proved: with names separated by colons directories are found at every depth (C133_colons_partial). [C133_colons_partial, C133_slashes_find_nothing, C133_missing_name_ignored, C133_refuted]
- **C134 Mount flags mean what they are called and unknown ones are ignored.** Bit lemmas on BitVec 64; equality of every operation under a change of the mount flags that keeps the write permission, induction on the program. *proved.* C134_names, C134_combine, C134_mask, C134_predicates for every flag word; C134_ignored for every program, by equality of whole runs. (That the permissions other than write are never asked for is C98.) [C134_names, C134_combine, C134_mask, C134_predicates, C134_ignored]
- **C135 FAT programs change the volume only where they should, in a safe order.** A recording wrapper around the version-specific driver, shown transparent; a grammar of the events of each call; induction on the program. *proved.* C135_unsupported, C135_lstat, C135_changes (every program, with the record of changing calls shown not to alter the run), C135_entry_first (crash points), C135_asking. Which entry and which clusters are concerned is the matter of C54, C78 and C79 (refuted there). [C135_unsupported, C135_lstat, C135_changes, C135_entry_first, C135_asking]
- **C136 CreateObject is only called for objects that do not exist, in a directory.** A recording implementation; frames from one state; the exact result of looking up a name in the root directory; counterexamples by evaluation. *partial.* FALSE of the code: Mkdir and MkdirAll never look whether the object is there, OpenFile(O_CREATE) on a link to nothing asks for an object where the link is (C136_refuted_mkdir, _mkdirAll, _open). Proved: the parent is always the root directory, for all paths and configurations (C136_parent); OpenFile and WriteFile keep the promise whenever the last component is no link (C136_open_partial), Mkdir and MkdirAll whenever nothing is there (C136_mkdir_partial). [C136_refuted_mkdir, C136_refuted_mkdirAll, C136_refuted_open, C136_refuted, C136_parent, C136_open_partial, C136_mkdir_partial]
- **C137 CreateHardLink is only called for a file, into a directory, and for a free name.** As C136. *partial.* FALSE of the code: Link never looks whether the source is a directory (C137_refuted; even the root, C137_refuted_root), and takes a link to nothing at the target for a free name (C137_refuted_target). Proved: the parent is always the root directory (C136_parent), and the whole promise when the source is neither directory nor link and the target's last component is no link (C137_link_partial). [C137_refuted, C137_refuted_root, C137_refuted_target, C137_link_partial]
- **C138 Slices of the block cache stay connected to it until a resize.** Sessions over the cache model extended by the arrays it abandoned and the windows handed out; simulation invariant (loaded blocks, clean-unless-unmarked), induction over the session. *proved.* C138_slices: refinement of a flat array with views, for all sessions, no panics, every error has a reason. C138_durable: Flush, with the set of blocks written through a slice and not marked since. Not modelled: append to a slice (its spare capacity is the rest of the array). [C138_slices, C138_durable]
- **C139 Copying one open stream to another.** Both loops over two stream models; each is shown to be a sequence of Writes of whole blocks and a rest (induction over the number of blocks), then each kind of destination has an invariant preserved by a Write (written up to here; stuck in the middle; zeros). *partial.* False of the code both ways (C139_refuted: 5 bytes over a file of 6 leave 1 2 5 4 5 6 with nil; C139_from_refuted: the last bytes are lost with nil). Proved exactly: C139_room_partial (destination with more than twice the blocks: exact both ways), C139_blocks_partial / C139_from_blocks_partial (destination of N whole blocks: only the first N/2 blocks of the source arrive), C139_empty_partial (empty destination: exact below one block, otherwise one block with the last bytes of the source and a nil error), C139_append_partial (O_APPEND: right size, all zeros, nil). C139_readonly_partial: a destination not opened for writing gets the full count and nil from WriteTo. C139_unreadable_partial: an unreadable source. For any two block sizes: C139_writeTo_exact_partial, C139_readFrom_exact_partial (what arrives is what the machine of C148 becomes by Writes of the source's blocks). For storage that fails: C139_failing_partial, C139_calls_partial, C139_from_calls_partial. (Copying a stream onto itself is C145.) [C139_writeTo_exact_partial, C139_readFrom_exact_partial, C139_calls_partial, C139_failing_partial, C139_from_calls_partial, C139_refuted, C139_from_refuted, C139_room_partial, C139_blocks_partial, C139_from_blocks_partial, C139_empty_partial, C139_append_partial, C139_readonly_partial, C139_unreadable_partial]
- **C140 A Flush that stops in the middle.** Flush is one WriteAt of three copies; a prefix shorter than one copy leaves copy 2 old, a longer one leaves copy 1 new, and GetFAT accepts only equal copies. Counterexample: a file on which a write stores every other sector. *partial.* False of the code for disks that store sectors in any order (C140_refuted: on a floppy, whose FAT takes two sectors, half of each copy new and half old is accepted by GetFAT). Proved: for writes that store any prefix of their bytes, on every volume, for GetFAT and Mount, with nothing outside the copies changed and the driver's FAT kept (C140_prefix_partial); for reordered sectors, every sector returned is old or new (C140_sectors_partial), hence the full statement on minifloppies (C140_minifloppy_partial). [C140_prefix_partial, C140_sectors_partial, C140_minifloppy_partial, C140_refuted]
- **C141 A FormatImage that stops in the middle.** Induction over the sectors of the directory for writes that store a prefix, then the info sector and the FAT copies; the prefixes compose to a prefix of the new track. *proved.* C141_format_stops is exact; C141_fat_after for GetFAT and Mount. It also shows what users must know: the directory is erased before the FAT is rewritten, so an interrupted FormatImage can leave a volume that mounts with the old FAT and no directory. [C141_format_stops, C141_fat_after]
- **C142 Resizing a wrapped stream.** Case analysis of the callback; resize_spec; a frame over histories (runOps_frame). *proved.* C142_refused, C142_resized (streams that deliver full reads and never use io.EOF as a write error, as in C113), C142_forbidden (any stream). C142_file: over a file that never fails, the general model of WrapStream and the simpler one used for C21 agree on results and bytes. Found by the automatic mutation sweep (swapping the two errors went unnoticed). [C142_refused, C142_resized, C142_forbidden, C142_file]
- **C143 What the storage holds after a crash at any moment of a history.** A ghost map from blocks to known bytes, kept true by every operation (induction over histories); a frame lemma shows that only Flush and Resize write; a crash is a storage whose writes fail from some moment on. *proved.* C143_storage, C143_killed (crash after any number of block writes), C143_reopen, C143_last_flush. Complements C22 (one interrupted Flush). [C143_storage, C143_last_flush, C143_reopen, C143_killed]
- **C144 What was stored before a stream was opened survives it.** The set of clean blocks inside the low-water mark, with their stored bytes, is an invariant of every call (induction over histories and over the loops of WriteTo and ReadFrom). *proved.* C144_kept, C144_killed (crash after any number of block writes), C144_clean (streams in use, for blocks not waiting to be flushed). The other side of C30: overwriting is never destructive because it is never stored. [C144_kept, C144_killed, C144_clean]
- **C145 Copying a stream to itself.** Loops of WriteTo and ReadFrom over one stream state; termination by the number of blocks left, non-termination by an invariant that every round restores. *partial.* FALSE for WriteTo and io.Copy (C145_refuted): every Write that fails makes the file longer, so there is always another block to read; C145_never_partial and C145_never_append_partial: a file that ends in the last block of its object, with a whole block left, is extended until memory is exhausted. Proved: ReadFrom in full (C145_readFrom_partial, also with failing storage); WriteTo never panics and keeps what is before the position (C145_writeTo_partial), and ends if the stream is not writable or its object is more than a block longer than the file (C145_ends_partial). C145_refused_partial: streams that cannot be read or written. [C145_refuted, C145_readFrom_partial, C145_writeTo_partial, C145_ends_partial, C145_never_partial, C145_never_append_partial, C145_refused_partial]
- **C146 A stream over storage of fixed size.** Frame argument: a stream on a new cache has no dirty blocks, and over storage that refuses to be resized no call marks one; writes by the specification of the write path. *partial.* FALSE of the code (C146_refuted: a write over the first byte of a slice of 6 bytes returns nil, Sync returns nil, the slice is unchanged). Proved, for all histories: storage, size and number of blocks never change (C146_kept_partial), the flush callback is never called (C146_never_partial), Truncate and New with O_TRUNC never return nil (C146_truncate_partial, C146_new_partial), a write succeeds exactly if off/bpb + (off+len)/bpb is less than the number of blocks and is then seen by the stream (C146_write_partial), so what ends at the end of the storage can never be written (C146_last_partial); all that for WrapSlice (C146_slice_partial). [C146_refuted, C146_kept_partial, C146_never_partial, C146_truncate_partial, C146_new_partial, C146_write_partial, C146_last_partial, C146_slice_partial]
- **C147 FAT8 SameFile.** Definitional unfolding of EqualFold on ASCII and the theorems of C48. *partial.* FALSE of the code (C147_refuted: "AB" and "AB "). Proved: SameFile compares the names ignoring case (C147_names_partial), is an equivalence, implies the same on-disk form and the same Stat (C147_same_partial), and is exact for names without trailing spaces or empty extensions (C147_plain_partial). C147_exact_partial: for all names that can be stored, exactly when SameFile is wrong. [C147_refuted, C147_names_partial, C147_equivalence_partial, C147_same_partial, C147_plain_partial, C147_exact_partial]
- **C148 An open stream is a simple machine.** Simulation: each call commutes with `shown`, by the specifications of the read, write, truncate and seek paths; induction on the history. *proved.* C148_open (New) and C148_history (all histories: same answers, same Size and Tell, same final object; the only way not to answer is a WriteTo/ReadFrom whose loop does not end in the machine either). The machine (Stream/Machine.lean) has no caches, blocks in storage or fixed-width arithmetic, except that the count of ReadFrom wraps. [C148_open, C148_history]
- **C149 What an open stream leaves in the storage.** Simulation as for C148: each call commutes with `held` (which bytes are stored, which are waiting), by the specifications of Flush and Resize; induction on the history. *proved.* C149_history, C149_synced, C149_reachable. The account (Stream/Storage.lean) uses only the machine of C148. That overwritten blocks are never stored is what the code does (C30 is refuted); this is the exact contract. [C149_history, C149_synced, C149_reachable]
- **C150 A compressed image cut short is never taken for a complete one.** The decoder's output on a beginning is a beginning (idealDec_prefix); the error of the gzip reader is passed on by DecompressRLE8; compressImage_runs gives the exact sequence of writes. *proved.* C150_delivered, C150_cut, C150_toBytes, C150_zipimage, C150_unzipimage. The assumption on the gzip library (NoticesCuts) is a hypothesis of the theorems; sealGzip is a codec proved to meet it. [C150_zipimage, C150_unzipimage, C150_delivered, C150_cut, C150_toBytes]
- **C151 What a failed CompressImage has written is not accepted.** C151_refuted by a concrete run; exactness from the sequence of runs the grouper yields before the error (collectRuns_fail). *partial.* FALSE: the gzip stream is closed even if reading the image failed, so a complete compressed image is left, of the bytes read without their last run (C151_refuted; exactly: C151_exact_partial, C151_accepted_partial, C151_zipimage_partial). True if it is writing that fails and not all was written (C151_writes_partial). [C151_zipimage_partial, C151_refuted, C151_exact_partial, C151_accepted_partial, C151_writes_partial]
- **C152 The standard library reads streams correctly.** read_cases gives the three things a Read can do (from C23); induction over the loops of the library functions. *proved.* C152_readAll, C152_again (the exact position afterwards and what a second io.ReadAll returns), C152_readAtLeast, C152_readFull, C152_copyN. The functions of package io are client programs written down in Stream/Clients.lean from the library's source (trusted transcription); the writer of io.CopyN has no ReadFrom method. [C152_readAll, C152_again, C152_readAtLeast, C152_readFull, C152_copyN]
- **C153 An open file is a simple machine.** Driver/Files.lean lifts single calls of the stream to the file methods of the driver's histories (Plays: the machine's answers to a list of methods); Stream/InPlace.lean shows that calls in place do on any storage what they do on one that can only be read, for which the machine lemmas of C148 hold without a reliable WriteBlocks or Resize. *partial.* False as shipped: OpenFile panics (C153_refuted). With wrapObjectHandle keeping the handle, for names in the root (also through symbolic links) and names that O_CREATE creates there: C153_in_place_partial (methods that ask for no other size, any implementation whose ReadBlocks reads; the volume stays as it is, so what was written in place is lost, cf. C30, C146), C153_reader_partial (no write access: all methods), C153_all_partial (all methods and O_TRUNC, with callbacks that do not fail and a Resize that counts blocks, which is what the driver passes though api.go says bytes; O_TRUNC with O_SYNC gives the machine's error). C153_program_partial, C153_program_in_place_partial and C153_program_reader_partial say the same of whole programs: whatever else the program does with other files and the volume (short of writing to, truncating or removing what a path leads to), the file's answers are the machine's, on implementations that keep the object's contents apart (with C127). [C153_in_place_partial, C153_reader_partial, C153_all_partial, C153_refuted, C153_program_partial, C153_program_in_place_partial, C153_program_reader_partial]
- **C154 What one Sync or Close at the end of a stream's life stores.** Which blocks wait to be written is an invariant of every call of the reference machine (Stream/Unsynced.lean: the first `low` bytes are stored, all others wait), by induction over the history; then C148 and C149. *proved.* C154_unsynced (exact, for all opening flags but O_SYNC), C154_anew (O_TRUNC: everything is stored), C154_sync_between (with a Sync in between, bytes are lost: no error, the file shown and the file stored differ). The general account is C149. [C154_unsynced, C154_anew, C154_sync_between]
- **C155 What a program leaves in the volume when it closes a file.** The machine of C153 with the account of C149 carried along every call (run_held), Close = Sync, C154's invariant, and C81 for ReadFile. *partial.* FALSE of the code as shipped (OpenFile panics, C155_refuted) and with the wrapper repaired (C155_refuted_keeping: what overwrites existing blocks never reaches the volume, although Sync and Close return nil). Proved with the handle kept: the exact bytes in the volume for every history (C155_account_partial), in closed form if there is no Sync before Close (C155_unsynced_partial), and that a file opened with O_TRUNC or created, and not synced before Close, is stored completely and read back by ReadFile (C155_anew_partial). C155_program_partial: also while the program uses other files and the volume. [C155_account_partial, C155_unsynced_partial, C155_anew_partial, C155_refuted, C155_refuted_keeping, C155_program_partial]
- **C156 A FAT8 driver is a simple machine.** Simulation: a relation between driver and machine is kept by every call, whether it succeeds or fails (agrees_*), then induction over the sequence of calls. *proved.* The machine (Fat8/Machine.lean) says what the driver does, including what C41, C42, C43, C69 find wrong: it reserves the wrong clusters, cannot mount what it did not format, writes clusters in the wrong place. A Truncate that fails is C70. [C156_fat8_machine, C156_failing_file]
- **C157 A FAT8 call that failed because of the image file can be repeated.** By C156 for failing files: what an interrupted call leaves differs only in bytes that the repeated call writes (interrupted_again). *proved.* The statement does not mention the machine of C156: it compares the driver on the failing file with the same driver on a file that does not fail. [C157_fat8_retry]
- **C158 A call on an open stream that failed because of the storage can be repeated.** A failed call leaves the reference machine of C148 as it was, or extended, or with the whole effect of the call (put_cases, truncate_cases); doing the call again on each of these gives the same (put_again, put_grown, truncate_again); then induction over the attempts. WriteTo: induction over the loop with the pieces already given. *partial.* False of the code for Write: with O_SYNC a Write whose final Sync failed has moved the position and returned the full count with the error (C158_refuted), and a failed Write in append mode may have extended the file (C158_append_refuted), so the repeated Write is misplaced. Proved for all other calls, for Writes that returned 0 (in append mode: if Size is as before), for whole programs; proved that a Write or WriteAt that returned its full count with such an error has done everything but the Sync; and proved for WriteTo. Not covered: ReadFrom. [C158_retry_partial, C158_written_partial, C158_writeTo, C158_refuted, C158_append_refuted]
- **C159 A program that repeats every failed cache call gets through.** Each operation is followed through its loops: it never adds to the failures left and, if it fails other than with ErrArgumentOutOfRange, uses one (step_spent); operations inside the object do not fail with that error (within_err). Lexicographic induction on the program and the failures left, with step_spec; uniqueness by induction on the run; durability from the clean bits after the last Flush. *proved.* Liveness: every failed call inside the object has used up at least one failure of the storage (step_spent), so the retries end. A program that asks outside the object, or loads/flushes a cache of no blocks (C19), is refused for ever and is excluded by FitsIn. [C159_ends, C159_durable]
- **C160 On an open stream no more calls fail because of the storage than the storage fails.** Each stream function is followed through its loops (answerCall_spent), on top of the same fact for the cache (C159); induction over the calls. The retrying program: lexicographic induction on the calls and the failures left, with C158 for the answers. *proved.* C160_failures holds of any stream value, whether or not the storage keeps what it is given. Storage without a resize callback refuses every Truncate and is outside C160_failures; C160_gets_through does not need it. That a program with Write or Truncate ends with the right answers is not claimed: see C158. C160_close asks for an object of at least one block (on none Close always fails: C34); bytes written into blocks that were not added are not marked as modified by the code, and so not stored (C30). [C160_failures, C160_gets_through, C160_close]
