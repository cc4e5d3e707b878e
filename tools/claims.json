{
 "C01": {
  "status": "proved",
  "note": "For every byte string, including runs cut at math.MaxInt."
 },
 "C02": {
  "status": "proved",
  "note": "Runs are exactly the (unique) maximal runs; read errors are reported with the runs before them."
 },
 "C03": {
  "status": "proved",
  "note": "All four functions, any writer obeying the io.Writer contract, any reader."
 },
 "C04": {
  "status": "proved",
  "note": "Against an independent grammar of RLE8."
 },
 "C05": {
  "status": "proved",
  "note": "Exact size by maximal runs, plus both bounds."
 },
 "C06": {
  "status": "proved",
  "note": "Against an independent grammar and reference reader for the recursive format."
 },
 "C07": {
  "status": "partial",
  "note": "FALSE of the code: DecompressRLERecursive is a copy of the compressor (C07_refuted). Proved: exactly the inputs whose maximal runs are single bytes or 1,1,1 come back (C07_exact_partial); the output is always an encoding of the input (C07_decompressor_compresses)."
 },
 "C08": {
  "status": "proved",
  "note": "For every lossless gzip (library assumption recorded in structure Gzip)."
 },
 "C09": {
  "status": "proved",
  "note": "Any history from New over any lawful, possibly failing storage; results equal those of a flat byte array, and every error is justified."
 },
 "C10": {
  "status": "proved",
  "note": "Any history, including failed flushes before."
 },
 "C11": {
  "status": "partial",
  "note": "Proved for ReadAt and WriteAt. FALSE for GetSlice/MarkBlockRangeDirty when count*bytesPerBlock wraps (C11_slices_refuted); proved for them below 2^63 bytes."
 },
 "C12": {
  "status": "proved",
  "note": "Results after a failed call are those of the history without it; dirty blocks stay dirty or are stored."
 },
 "C13": {
  "status": "proved",
  "note": "For every callback invocation in every history."
 },
 "C14": {
  "status": "proved",
  "note": "Stronger than stated: once in the whole life of the cache, resizes included."
 },
 "C15": {
  "status": "proved",
  "note": "Pending blocks are computed from the history by an independent ghost function."
 },
 "C16": {
  "status": "proved",
  "note": "Includes shrink-then-grow, Size and failure."
 },
 "C17": {
  "status": "partial",
  "note": "FALSE of the code: the count is rounded up to whole blocks (C17_refuted). Proved for whole-block buffers, with the exact rounding in general."
 },
 "C18": {
  "status": "partial",
  "note": "FALSE near 2^64 (C18_refuted); C18_exact_partial: true exactly when size+bytesPerBlock does not exceed 2^64, otherwise the result is 0."
 },
 "C19": {
  "status": "partial",
  "note": "FALSE of the code: all three fail on an empty cache (C19_refuted). Proved for non-empty caches, and exactly: on an empty cache all three fail and change nothing; otherwise (callbacks not failing) they succeed (C19_exact_partial)."
 },
 "C20": {
  "status": "partial",
  "note": "FALSE for blocks never fetched: data loss (C20_refuted, C20_refuted_data_loss). Proved for loaded blocks, and exactly (callbacks not failing): the blocks of the range that are not in the cache become zeros, everything else stays; so the claim holds of a call iff those blocks are zero in storage (C20_exact_partial)."
 },
 "C21": {
  "status": "partial",
  "note": "FALSE of the code: WrapStream's callbacks keep the original block count (C21_refuted). Proved for streams not grown, the wrapped stream obeys the callback contract, and exactly when Flush succeeds after any history (C21_exact_partial)."
 },
 "C22": {
  "status": "proved",
  "note": "Crashes are modelled as a callback that does not succeed and may leave garbage in the block it was writing."
 },
 "C35": {
  "status": "proved",
  "note": "All 64-bit values, Linux os.O_* constants; nothing else is set. The undefined access mode 3 maps to read-only. C35_predicates: every Disko flag word; with both access bits set neither Read nor Write holds."
 },
 "C36": {
  "status": "proved",
  "note": "All 32-bit modes; the three predicates are exclusive even without the at-most-one-type-bit assumption."
 },
 "C37": {
  "status": "proved",
  "note": "Any chain; a wrapped *multierror.Error is flattened, so its elements (not the pointer) match (C37_flattened). C37_new: NewError."
 },
 "C38": {
  "status": "proved",
  "note": "Sentinels; foreign errors are wrapped with the message ': <msg>' by CastToDriverError, which the property does not forbid. C38_made: every error the package makes; C38_new, C38_new_drops: NewError(m).WithMessage(x) is \"x\", not \"m: x\". C38_cast_others: what is not a DriverError is wrapped."
 },
 "C23": {
  "status": "proved",
  "note": "Any reachable stream (any cache history, any sequence of stream calls), any buffer and offset."
 },
 "C24": {
  "status": "partial",
  "note": "FALSE of the code: a read returning data with io.EOF does not advance (C24_refuted). Partial: reads that return nil, and sequences of them."
 },
 "C25": {
  "status": "proved",
  "note": "Any history of calls after opening. C25_refused: also a read-only stream that was not reached through the API refuses every writing call with count 0."
 },
 "C26": {
  "status": "partial",
  "note": "WriteAt refusal and independence of the position proved. FALSE: the size is not updated when the data ends inside the last block (C26_refuted). Partial: where the bytes go, and the full statement when the data reaches the end of the object."
 },
 "C27": {
  "status": "proved",
  "note": "Exact integer arithmetic, including int64 overflow; position in range in every history."
 },
 "C28": {
  "status": "partial",
  "note": "FALSE: growing inside the last block uncovers old bytes (C28_refuted). Partial: size, prefix, zeros beyond the last block, full statement for files that fill their blocks; failures change nothing without O_SYNC. C28_exact_partial: the file after every successful Truncate, byte by byte: the first n bytes of the whole cached object, then zeros."
 },
 "C29": {
  "status": "partial",
  "note": "FALSE: overwriting in the middle of a file fails (C29_refuted). Partial: read back after nil; the exact condition under which a write succeeds."
 },
 "C30": {
  "status": "partial",
  "note": "FALSE: existing blocks are not marked dirty; with O_SYNC not even new ones (C30_refuted). Partial: exactly which bytes reach the storage (C30_exact_partial, C30_osync_exact_partial): written ones in added or already dirty blocks, without O_SYNC; old ones elsewhere; zeros in blocks added with O_SYNC."
 },
 "C31": {
  "status": "partial",
  "note": "FALSE: a write ending inside the last block does not change the size (C31_refuted). Partial: the other writes."
 },
 "C32": {
  "status": "partial",
  "note": "FALSE: the writer's errors are ignored (C32_refuted). Partial: pieces, order, count, termination, for any writer; exactly (C32_exact_partial): with reliable storage WriteTo always hands over the whole rest and returns its length and nil, whatever the writer does."
 },
 "C33": {
  "status": "partial",
  "note": "FALSE: the Write error is lost when data arrives with io.EOF (C33_refuted). Partial: readers that never return data with an error. C33_exact_partial: for any reader and any result, all delivered chunks are written in order and counted, which of the three ways ReadFrom stopped, and that only the error of the last Write can be lost."
 },
 "C34": {
  "status": "partial",
  "note": "FALSE: Sync/Close on an object of 0 blocks, and O_TRUNC|O_SYNC, fail (C34_refuted). Exactly: with reliable callbacks Sync succeeds iff the object has a block (C34_sync_exact_partial); O_TRUNC with O_SYNC always reports an error, after emptying the file (C34_truncate_sync_partial); O_TRUNC without O_SYNC fails only if the resize callback does."
 },
 "C67": {
  "status": "partial",
  "note": "FALSE: ReadAt with a negative offset panics (C67_refuted). Partial: calls with non-negative offsets and allocatable sizes. C67_readAt_exact_partial, C67_writeAt_exact_partial: for negative offsets, exactly when they panic. C67_returns_partial covers ReadFrom any reader that ends."
 },
 "C68": {
  "status": "partial",
  "note": "FALSE: a failed write at the end leaves a longer file (C68_refuted). Partial: the old bytes are kept; nothing changes when the write ends before the end of the object. C68_exact_partial: the two possible files after a failed write, byte by byte."
 },
 "C39": {
  "status": "proved",
  "note": "Every block count."
 },
 "C40": {
  "status": "proved",
  "note": "Any lawful file; requires Truncate to work (its result is ignored by the code, see C70)."
 },
 "C41": {
  "status": "partial",
  "note": "FALSE of the code: FAT entries are indexed by track instead of cluster (C41_refuted). Partial: exactly two clusters are reserved, all others free. C41_exact_partial: the mark of every cluster in each of the three copies."
 },
 "C42": {
  "status": "partial",
  "note": "FALSE of the code: a new driver never mounts any image (C42_refuted, C42_never_mounts). Partial: the driver that formatted can mount."
 },
 "C43": {
  "status": "partial",
  "note": "FALSE of the code: write and read compute different offsets (C43_refuted). Exactly: after WriteAbsoluteCluster(c, data) ReadAbsoluteCluster(c) returns data if c = 1 and otherwise the old contents of c (C43_exact_partial); for files with cluster number p likewise with p = 2 and cluster p+1 (C43_file_exact_partial); writes change cluster 2c-1 and nothing else."
 },
 "C44": {
  "status": "partial",
  "note": "Writes proved. FALSE for reads: last block unreadable (C44_read_refuted), wrap-around accepted (C44_read_overflow). Partial: exact bound of reads unless start+count wraps around 2^64."
 },
 "C45": {
  "status": "proved",
  "note": "Any history; Flush for mounted volumes."
 },
 "C46": {
  "status": "partial",
  "note": "FALSE of the code: entries beyond the last cluster are listed (C46_refuted), remounting duplicates (C46_remount_duplicates). Partial: what one Mount adds is exact on the clusters of the volume and has no duplicates. C46_exact_partial: the list after Mount, exactly."
 },
 "C47": {
  "status": "partial",
  "note": "Acceptance and on-disk length proved (C47_accepts). FALSE of the code for names ending in a period (C47_refuted). C47_form_partial: what every accepted name becomes; C47_exact_partial: the upper-cased name comes back if and only if the name has no trailing spaces in stem or extension and does not end with its first period."
 },
 "C48": {
  "status": "partial",
  "note": "FALSE of the code (C48_refuted: \"AB.\" and \"AB..\"). C48_exact_partial: two accepted names share their form if and only if stem and extension, without trailing spaces, agree ignoring case (where a name ending with its first period has the extension \".\")."
 },
 "C69": {
  "status": "partial",
  "note": "FALSE of the code: only the directory track is written (C69_refuted). Partial: exact effect on every byte."
 },
 "C70": {
  "status": "partial",
  "note": "FALSE of the code: the result of Truncate is ignored (C70_refuted). Exactly (C70_exact_partial): after a reported success the directory track is complete and everything else is what Truncate left, whatever failed; the size is right iff Truncate succeeded or the image had it before."
 },
 "C71": {
  "status": "proved",
  "note": "Any history."
 },
 "C72": {
  "status": "partial",
  "note": "FALSE of the code for text files (C72_refuted: ErrNotImplemented); proved for binary files; no history ever fills the table (C72_stat_never_finds). C72_stat_partial gives every field Stat sets."
 },
 "C73": {
  "status": "proved",
  "note": "Any lawful file on which Truncate works."
 },
 "C58": {
  "status": "proved",
  "note": "Both round trips for every word/mode, exact acceptance, and the resulting type bits. The inode's 0x1000 (large file) and 0x0200 bits are outside the meaningful mask and are not preserved."
 },
 "C59": {
  "status": "proved",
  "note": "For every inode: 24-bit little-endian size, exact ceiling block count, identity, owner, mode and times copied."
 },
 "C60": {
  "status": "proved",
  "note": "Size exact for all geometries with fewer than 2^63 bits (C60_size_unbounded_refuted shows the bound is needed); lookup exact for every table and every string; a table is read as written, row by row and field by field, and one with a ragged row does not load (C60_table_text, C60_ragged_refused; nor does an empty one, C60_empty_refused); the shipped table loads and equals the listed one. encoding/csv and csvutil are modelled for the features the table uses."
 },
 "C74": {
  "status": "partial",
  "note": "False for every character device (C74_refuted, C74_refuted_everywhere): it is reported as ModeCharDevice without ModeDevice and Go's own mode for it is rejected. Proved: the other three types follow the convention."
 },
 "C49": {
  "status": "proved",
  "note": ""
 },
 "C50": {
  "status": "partial",
  "note": "FALSE of the code: every stream of at least 36 bytes makes the header read panic (unexported field; C50_every_header_panics, C50_refuted). Proved for the rest of the function: what is accepted is sane, and the exact panic condition. After the header, exactly which headers are accepted (C50_accepted_iff_partial). (Every header; if the reserved sectors exceed the rest, the count wraps around.)"
 },
 "C51": {
  "status": "partial",
  "note": "FALSE of the code: the first data sector is too small for every well-formed header (C51_first_data_sector_wrong), and the cluster count (hence the version) and the size of the root directory can be wrong (C51_*_refuted). C51_exact_partial: every value computed, for every well-formed header."
 },
 "C52": {
  "status": "proved",
  "note": "For every driver that counts end marks as valid clusters; if it does not, no chain can be listed (C52_end_marks_must_be_valid)."
 },
 "C53": {
  "status": "partial",
  "note": "FALSE of the code: there is no cycle detection. Proved: listing ends if and only if the chain is not cyclic."
 },
 "C54": {
  "status": "partial",
  "note": "FALSE of the code: no file is ever found, and a Remove that succeeds frees clusters numbered below the chain length rather than the chain. Exact effect proved. Directories are refused (C54_directory_partial); the parent passed on is the directory part of the path (C54_parent_partial). All hold for every repair of the decoding of entries."
 },
 "C55": {
  "status": "partial",
  "note": "FALSE of the code: decoding any entry panics (3-byte slice read as uint32). C55_always_panics is the complete behaviour. C55_repaired_partial: the decoder used where the other claims speak of repaired decoding is the one the specification asks for."
 },
 "C56": {
  "status": "partial",
  "note": "FALSE of the code for IsDir (syscall bits where os bits are tested). Permissions and the syscall-style type bits are proved for all 256 attribute bytes."
 },
 "C57": {
  "status": "partial",
  "note": "FALSE of the code for SetDeletedAt (never succeeds). Setters, getters and histories of the other calls proved. Exactly which times can be read from which entries (C57_getters_partial)."
 },
 "C75": {
  "status": "partial",
  "note": "FALSE of the code: time.Date is called with a nil location, so every call panics. With a location, the values passed to it are proved to be the encoded ones, except nanoseconds (C75_hundredths_lost)."
 },
 "C76": {
  "status": "partial",
  "note": "FALSE of the code: no file is ever found (C76_never_reads). The assembly of the contents from the clusters is proved when all clusters are needed; exactly (C76_assemble_exact_partial): too few clusters give a shorter file without an error, an extra cluster a panic, and so does a last cluster that yields fewer bytes than needed, as with several sectors in a cluster (C80). Directories are refused (C76_directory_partial); what ReadFile does for missing files is proved exactly (C76_missing). All hold for every repair of the decoding of entries."
 },
 "C77": {
  "status": "partial",
  "note": "FALSE of the code in all three parts (C77_files_not_found, C77_missing_succeeds, C77_root_error_dropped). What Stat can return is proved. All hold for every repair of the decoding of entries."
 },
 "C78": {
  "status": "partial",
  "note": "The stored mode bits are proved for every mode; the read-only attribute is never changed (C78_attribute_refuted)."
 },
 "C79": {
  "status": "partial",
  "note": "FALSE of the code: errors of the setters are ignored (C79_refuted). Exact effect proved."
 },
 "C80": {
  "status": "partial",
  "note": "FALSE of the code: one sector at a wrong offset is read (C80_refuted). What is read is proved exactly."
 },
 "C61": {
  "status": "partial",
  "note": "FALSE of the code: '.', '' and 'x/..' resolve to the root instead of the working directory (C61_refuted). Proved: result canonical for every string, idempotent, never above the root, absolute paths and relative paths that lead somewhere else."
 },
 "C62": {
  "status": "partial",
  "note": "FALSE of the code as shipped: no path operation ever returns (wrapObjectHandle drops the handle; C62_refuted, C62_shipped_partial). Also false with the handle kept: paths of two or more components recurse for ever (C62_refuted_keeping, C62_deep_partial). Proved with the handle kept: the root and what is in it."
 },
 "C63": {
  "status": "partial",
  "note": "FALSE of the code: a link leading into a cycle it is not part of is followed for ever (C63_refuted; as shipped C63_refuted_shipped). With the handle kept, for links in the root: chains, cycles through the start, dangling links and the exact non-termination condition are proved."
 },
 "C64": {
  "status": "partial",
  "note": "Refusal (any configuration, any implementation) and non-refusal proved. FALSE with the handle kept: O_RDONLY|O_CREATE and Mkdir create on a read-only mount (C64_refuted, C64_refuted_mkdir). As shipped nothing else is ever returned (C64_shipped)."
 },
 "C65": {
  "status": "partial",
  "note": "Paging proved for every file on a directory object, any sequence of sizes, any changes between the calls. FALSE through the driver: OpenFile refuses directories (C65_refuted)."
 },
 "C66": {
  "status": "partial",
  "note": "FALSE of the code: Resize is given the number of blocks (C66_refuted). Exact effect proved; enough only for 1-byte blocks or at most one byte (C66_enough_partial)."
 },
 "C81": {
  "status": "partial",
  "note": "FALSE of the code as shipped (panic: C81_refuted) and, with the handle kept, for objects below the root's children (endless recursion: C81_refuted_keeping). With the handle kept, proved for the root directory and everything reached from it by links."
 },
 "C82": {
  "status": "proved",
  "note": "For every configuration of the code."
 },
 "C83": {
  "status": "proved",
  "note": "For every configuration of the code: canonical form after any history (C83_canonical), the iff and the errors (C83_chdir_iff_directory), where Chdir leads to (C83_where), File.Chdir (C83_file_where: where the file was found or created when it was opened). File systems are assumed to satisfy Quiet (looking up and closing change nothing). C83_reaches_root_entries: Chdir does reach directories in the root when the handle is kept."
 },
 "C84": {
  "status": "partial",
  "note": "FALSE of the code: Lstat follows the whole chain (C84_refuted with the handle kept; C84_refuted_shipped as shipped). What it does is proved: it describes the end of the chain, hence is right on objects that are not links."
 },
 "C85": {
  "status": "partial",
  "note": "FALSE of the code as shipped (panic: C85_refuted). With the handle kept, proved for the names in the root; the refusal without link support in every configuration."
 },
 "C86": {
  "status": "partial",
  "note": "FALSE of the code even when the wrapper keeps the handle and passes on ListDir: a link is followed (C86_refuted), a path below a directory of the root never returns (C86_refuted_deep), the root is not protected (C86_root_unprotected). Proved with the wrapper repaired for files and directories in the root."
 },
 "C87": {
  "status": "partial",
  "note": "FALSE of the code: the directory itself stays (C87_refuted); with the handle kept only it panics (C87_keeping). Proved with the wrapper repaired: everything below a directory in the root, at any depth, is removed and nothing else; the root and objects that are not directories are refused and unchanged."
 },
 "C88": {
  "status": "partial",
  "note": "FALSE of the code: the text is read from the working directory (C88_refuted with the handle kept). What it does is proved (C88_from_working_directory_partial), so it is right when the working directory is the root."
 },
 "C89": {
  "status": "partial",
  "note": "FALSE of the code even with the wrapper repaired: CreateObject is called for names that exist, against its contract (C89_refuted), and a path below a directory of the root never returns (C89_refuted_deep). Proved with the handle kept: one CreateObject with the name, the root and exactly the mode asked for (C89_call_partial) and its effect on every volume (C89_volume_partial). Mkdir(\"/\") asks for an object with an empty name (C89_root)."
 },
 "C90": {
  "status": "partial",
  "note": "FALSE of the code: not for existing directories (C90_refuted, wrapper repaired), and a path of two or more components never returns (C90_deep, C90_refuted_deep, in every configuration). Proved with the handle kept for one component: the same call and effect as Mkdir."
 },
 "C91": {
  "status": "partial",
  "note": "FALSE of the code: type bits in the permissions are passed on, so a directory is made and left behind (C91_refuted, wrapper repaired), and below a directory of the root the call does not return (C91_refuted_deep, every configuration). Proved with the handle kept for files in the root."
 },
 "C92": {
  "status": "partial",
  "note": "FALSE of the code: Create opens an existing file for writing (C92_ignored_partial for every volume, C92_refuted, wrapper repaired)."
 },
 "C93": {
  "status": "partial",
  "note": "FALSE of the code for files below a directory of the root, which never returns (C93_refuted_deep). Proved with the handle kept for what is found from the root: exactly one Resize to 0, its error passed on."
 },
 "C94": {
  "status": "partial",
  "note": "FALSE of the code: directories are linked (C94_refuted) and a name taken by a dangling link is linked over (C94_refuted_dangling), both with the handle kept. The other cases are proved with the handle kept; without hard links every call is refused in every configuration (C94_unsupported)."
 },
 "C95": {
  "status": "partial",
  "note": "FALSE of the code: the flag makes no difference to any call in any configuration (C95_ignored_partial), so the link is followed (C95_refuted, handle kept)."
 },
 "C96": {
  "status": "partial",
  "note": "FALSE of the code: a file gives no ErrNotADirectory (C96_refuted, wrapper repaired) and a directory below a directory of the root is never listed (C96_refuted_deep, every configuration); when the handle is only kept, every ReadDir of an object that is found panics (C96_panics_partial). With the wrapper repaired: exactly the entries of the names listed (C96_listing_partial), errors passed on, and complete listings in any volume (C96_volume_partial)."
 },
 "C97": {
  "status": "partial",
  "note": "FALSE of the code: Chmod passes on type bits (C97_refuted, wrapper repaired), and when the handle is only kept nothing is ever called (C97_refuted_keeping). The rest is proved with the wrapper repaired, for what is found from the root."
 },
 "C98": {
  "status": "partial",
  "note": "FALSE of the code: Remove removes on a read-only mount (C98_refuted); twelve calls do not depend on the mount flags at all, in any configuration (C98_ignored_partial). It holds of WriteFile and Create (C98_writeFile, C98_create). Exactly, for whole programs and all calls, methods of open files included: with write permission the flags make no difference (C98_writable); without it the calls that ask to write fail and change nothing (C98_asking), and no other call depends on the flags (C98_programs_partial)."
 },
 "C99": {
  "status": "partial",
  "note": "FALSE of the code: only inode numbers are compared, so on a file system without them all files are the same (C99_refuted). It is an equivalence relation (C99_equivalence) and right if inode numbers identify objects (C99_partial)."
 },
 "C100": {
  "status": "partial",
  "note": "FALSE of the code: Type returns the whole mode (C100_refuted), File.Stat shows the information from before the file was opened (C100_refuted_fresh, wrapper repaired), and DirectoryEntry.Stat panics (C100_stat_panics). Everything else is proved (C100_partial, C100_opened_partial)."
 },
 "C101": {
  "status": "partial",
  "note": "FALSE of the code even with the wrapper repaired: of data shorter than a block one byte arrives (C101_refuted, C101_short_partial for every implementation that keeps the contract), data that fill whole blocks, and no data, give an error and null bytes (C101_empty_partial, C101_one_block_partial), and errors of the final flush are not reported (C101_refuted_reported). Proved with the handle kept: exactly which calls are made on any implementation (C101_existing_partial, C101_missing_partial), and exactly what the file holds afterwards for data of any length (C101_contents_partial: only the first ceil(length/blocksize) bytes arrive, or that many null bytes and an error when the data fill whole blocks), for implementations where writing blocks an object does not have changes nothing."
 },
 "C102": {
  "status": "proved",
  "note": "The calls of an operation that panics are not recorded, and as the code is every operation on a path panics (C62), so the theorems say most about the code with the wrapper repaired; they hold for every configuration of the code."
 },
 "C103": {
  "status": "proved",
  "note": "This is the guarantee the documentation of ReadBlocks gives to file system implementers. The reads WriteFile makes itself after resizing are not covered (the object then has a different size than the cache believes, C104)."
 },
 "C104": {
  "status": "partial",
  "note": "False of the code: Resize is documented in bytes and is given a number of blocks, so blocks are written beyond the end (C104_refuted: 5 bytes in blocks of 4). Proved instead: every WriteBlocks call is for exactly one block of the object's block size (C104_file_partial for all sequences of calls on an open file, C104_writeFile_partial)."
 },
 "C105": {
  "status": "proved",
  "note": "This is the guarantee the documentation of Unlink gives to file system implementers. As the code is, no call of Remove or RemoveAll on a path returns (C62), so the theorems say most about the code with the wrapper repaired; they hold for every configuration."
 },
 "C106": {
  "status": "proved",
  "note": "Errors of closing the output file are ignored by the code and not modelled. C106_returns: the commands panic exactly when run with an empty argument vector."
 },
 "C107": {
  "status": "partial",
  "note": "False when input and output are the same file, by whatever names: os.Create empties it before it is read, and the command exits with 0 (C107_refuted, C107_same_file). Proved otherwise (C107_zip_partial, C107_success)."
 },
 "C108": {
  "status": "partial",
  "note": "The last part is false: the output file is emptied before the input is looked at (C108_refuted: an input that is not a gzip file). The rest is proved for different files (C108_unzip_partial, C108_roundtrip, C108_success)."
 },
 "C109": {
  "status": "partial",
  "note": "FALSE of the script: the condition of trg_deallocate_blocks names a column without NEW or OLD, so every statement that deletes entries or inodes or changes a link count fails (C109_always_refused, C109_refuted). With NEW.nlinks the property is proved (C109_repaired_partial, C109_inodes_partial)."
 },
 "C110": {
  "status": "partial",
  "note": "FALSE of the script: nothing counts inserted entries, so deleting one of two names frees the blocks of a file still in use (C110_refuted as it is and repaired, C110_refuted_data_loss). Proved with NEW.nlinks: the exact effect of every DELETE (C110_delete_partial), and the property for drivers that add 1 with every entry they insert (C110_counting_partial)."
 },
 "C111": {
  "status": "proved",
  "note": "For the script as it is and repaired. SQLite's rules for constraints and cascades are the trusted part (head of Verif/Sql/Model.lean). C111_accepted: statements are accepted exactly if the resulting tables are sound."
 },
 "C112": {
  "status": "partial",
  "note": "FALSE for the entries of a root directory without an entry of its own (FAT), whose parent is NULL: the UNIQUE constraint does not apply (C112_refuted). Proved below every entry."
 },
 "C113": {
  "status": "partial",
  "note": "FALSE for streams whose Read returns less than asked for, which io.Reader allows: the count is ignored and the rest of the block is zeros (C113_refuted). Proved for streams whose Read delivers all there is unless it fails and whose Write does not report io.EOF (C113_full_reads_partial, C113_flush_partial)."
 },
 "C114": {
  "status": "proved",
  "note": "Over a model of the third-party bytesextra stream (SliceStream, sliceRWS), part of the trusted base."
 },
 "C115": {
  "status": "partial",
  "note": "FALSE when Seek to the end fails: the error is dropped and the cache has the number of blocks of whatever offset came with it, 0 in the counterexample (C115_refuted). Proved when it succeeds (C115_size_partial)."
 },
 "C116": {
  "status": "partial",
  "note": "FALSE: Close and SameAs are promoted from a nil embedded interface and panic (C116_refuted). Every other method is proved, whatever is embedded (C116_other_methods_partial). C116_panics_partial: these two panic, and no other method."
 },
 "C117": {
  "status": "partial",
  "note": "FALSE: padding and upper-casing work on characters: a name with characters whose upper case is not ASCII is stored in more than nine bytes (C117_refuted for every possible unicode.ToUpper; 'né.e' takes ten). Proved: ASCII names, where the function is the one C47 and C48 speak of (C117_ascii_partial); for UTF-8 names of any characters, what is accepted and that the result is exactly nine characters (C117_characters_partial), and that it is nine bytes iff all upper-case forms are ASCII (C117_nine_bytes_iff_partial). For names of any bytes, UTF-8 or not: C117_bytes_partial (what is accepted, the stored form, and the one case in which it has fewer than nine characters). C117_reads_partial: the characters the conversion sees are those of an independent relation for UTF-8 (Reads), for any bytes."
 },
 "C118": {
  "status": "partial",
  "note": "FALSE for bytes above 127: every byte that is not UTF-8 becomes U+FFFD, so entries that differ in such bytes have the same file name (C118_refuted, C118_same_name, for every possible unicode.ToUpper). Proved for ASCII (C118_ascii_partial), with BytesToFilename shown equal to the ASCII model there (C118_ascii_model_partial); exactly those entries of nine bytes that are ASCII, not blank, without lower case and without a period in the first six come back (C118_exact_partial)."
 },
 "C119": {
  "status": "partial",
  "note": "FALSE: Sys() returns the FileStat, SameFile asserts a Dirent: it panics on every pair of the driver's own entries (C119_always_panics, C119_refuted). If Sys() were the entry it would compare first clusters (C119_dirents_partial), by which all empty files are the same file (C119_empty_files)."
 },
 "C120": {
  "status": "partial",
  "note": "FALSE outside 1677-2262, e.g. for the zero time (C120_refuted); true exactly inside (C120_range_partial), which includes every FAT timestamp (C120_fat_partial)."
 },
 "C121": {
  "status": "partial",
  "note": "FALSE: with only TotalBlocks set the size is 0 and the call is refused (C121_refuted, contradicting the documentation); and 2^57+640 blocks of 128 bytes are formatted as a minifloppy (C121_wraps_refuted). Proved: it formats exactly when BlockSize*TotalBlocks modulo 2^64 is one of the three sizes, and otherwise changes nothing (C121_accepts_partial)."
 },
 "C122": {
  "status": "proved",
  "note": "Handles are numbered when they are given out; a ghost state records which numbers are closed and whether a method other than Close was called on a closed one. Root handles have no number (an implementation may return the same one every time) and are exempt. Close itself is called twice on some handles, which api.go allows. If a call panics, what it did before is not looked at: the program is dead."
 },
 "C123": {
  "status": "partial",
  "note": "FALSE: Chmod, Chown, Lchown, Chtimes, WriteFile and Link leave handles open, and closing a file never closes its handle (C123_leaks, C123_refuted, C123_files_stay_open: whatever a program does, each file it ever opened keeps its handle open). Proved for any sequence of the other operations and all methods of open files (C123_tidy_partial), when wrapping keeps the handle (keepHandle); as shipped, operations on paths do not return at all (C62). Exactly what leaks, for every implementation, path and state: the handle Open would give (Chmod, Chown, Chtimes, WriteFile, opening and closing: C123_leak_exact_partial), for directories too (C123_leak_stat_partial), the last handle for Lchown (C123_lchown_leak_partial), the old file's and the new link's for Link (C123_link_leak_partial)."
 },
 "C124": {
  "status": "proved",
  "note": "Callbacks are assumed not to fail (with failing callbacks a cached block does hide a failure). Numbers in the calls are bounded so that sizes do not wrap."
 },
 "C125": {
  "status": "proved",
  "note": "The operations on paths that do not look at the mount flags are listed in Justified; C64 is about them. If a call panics, what it did before is not looked at."
 },
 "C126": {
  "status": "proved",
  "note": "The history version of C82."
 },
 "C127": {
  "status": "proved",
  "note": ""
 },
 "C128": {
  "status": "partial",
  "note": "FALSE also with wrapObjectHandle repaired: each open file has a cache and a size of its own (C128_refuted: after Truncate and Sync through one file the other still reads the old number of bytes). Partial: files open for reading agree, however calls are interleaved, while nothing open for writing is of the object."
 },
 "C129": {
  "status": "proved",
  "note": ""
 },
 "C130": {
  "status": "proved",
  "note": "gzip is abstract (lossless, rejects empty input); bytesextra's stream is modelled from its documentation."
 },
 "C131": {
  "status": "partial",
  "note": "FALSE of the code: every call panics, because time.Date is given a nil location (C131_refuted). Proved with a time zone supplied: every entry in use or deleted is described exactly (C131_entry_partial), end marks give 'not found' (C131_end_mark_partial), each 8- or 3-byte field holds exactly one text so the cases are exhaustive (C131_every_field); blank names and clusters of no bytes panic even then (C131_panics)."
 },
 "C132": {
  "status": "partial",
  "note": "FALSE of the code: as shipped every directory panics (C132_refuted), and even with decoding repaired a directory whose last cluster is full cannot be listed or looked up (C132_repaired_refuted, C132_full_directory_fails), and clusters of several sectors can panic (C132_short_cluster_panics). Proved for every repair of decoding: directories with an end mark are listed exactly (C132_lists_partial)."
 },
 "C133": {
  "status": "partial",
  "note": "FALSE of the code even with decoding repaired (C133_refuted): the path is split with filepath.SplitList, which splits at ':', so no path with a slash is followed (C133_slashes_find_nothing) and missing names are ignored (C133_missing_name_ignored). Proved: with names separated by colons directories are found at every depth (C133_colons_partial)."
 },
 "C134": {
  "status": "proved",
  "note": "C134_names, C134_combine, C134_mask, C134_predicates for every flag word; C134_ignored for every program, by equality of whole runs. (That the permissions other than write are never asked for is C98.)"
 },
 "C135": {
  "status": "proved",
  "note": "C135_unsupported, C135_lstat, C135_changes (every program, with the record of changing calls shown not to alter the run), C135_entry_first (crash points), C135_asking. Which entry and which clusters are concerned is the matter of C54, C78 and C79 (refuted there)."
 },
 "C136": {
  "status": "partial",
  "note": "FALSE of the code: Mkdir and MkdirAll never look whether the object is there, OpenFile(O_CREATE) on a link to nothing asks for an object where the link is (C136_refuted_mkdir, _mkdirAll, _open). Proved: the parent is always the root directory, for all paths and configurations (C136_parent); OpenFile and WriteFile keep the promise whenever the last component is no link (C136_open_partial), Mkdir and MkdirAll whenever nothing is there (C136_mkdir_partial)."
 },
 "C137": {
  "status": "partial",
  "note": "FALSE of the code: Link never looks whether the source is a directory (C137_refuted; even the root, C137_refuted_root), and takes a link to nothing at the target for a free name (C137_refuted_target). Proved: the parent is always the root directory (C136_parent), and the whole promise when the source is neither directory nor link and the target's last component is no link (C137_link_partial)."
 },
 "C138": {
  "status": "proved",
  "note": "C138_slices: refinement of a flat array with views, for all sessions, no panics, every error has a reason. C138_durable: Flush, with the set of blocks written through a slice and not marked since. Not modelled: append to a slice (its spare capacity is the rest of the array)."
 },
 "C139": {
  "status": "partial",
  "note": "False of the code both ways (C139_refuted: 5 bytes over a file of 6 leave 1 2 5 4 5 6 with nil; C139_from_refuted: the last bytes are lost with nil). Proved exactly: C139_room_partial (destination with more than twice the blocks: exact both ways), C139_blocks_partial / C139_from_blocks_partial (destination of N whole blocks: only the first N/2 blocks of the source arrive), C139_empty_partial (empty destination: exact below one block, otherwise one block with the last bytes of the source and a nil error), C139_append_partial (O_APPEND: right size, all zeros, nil). C139_readonly_partial: a destination not opened for writing gets the full count and nil from WriteTo. C139_unreadable_partial: an unreadable source. For any two block sizes: C139_writeTo_exact_partial, C139_readFrom_exact_partial (what arrives is what the machine of C148 becomes by Writes of the source's blocks). For storage that fails: C139_failing_partial, C139_calls_partial, C139_from_calls_partial. (Copying a stream onto itself is C145.)"
 },
 "C140": {
  "status": "partial",
  "note": "False of the code for disks that store sectors in any order (C140_refuted: on a floppy, whose FAT takes two sectors, half of each copy new and half old is accepted by GetFAT). Proved: for writes that store any prefix of their bytes, on every volume, for GetFAT and Mount, with nothing outside the copies changed and the driver's FAT kept (C140_prefix_partial); for reordered sectors, every sector returned is old or new (C140_sectors_partial), hence the full statement on minifloppies (C140_minifloppy_partial)."
 },
 "C141": {
  "status": "proved",
  "note": "C141_format_stops is exact; C141_fat_after for GetFAT and Mount. It also shows what users must know: the directory is erased before the FAT is rewritten, so an interrupted FormatImage can leave a volume that mounts with the old FAT and no directory."
 },
 "C142": {
  "status": "proved",
  "note": "C142_refused, C142_resized (streams that deliver full reads and never use io.EOF as a write error, as in C113), C142_forbidden (any stream). C142_file: over a file that never fails, the general model of WrapStream and the simpler one used for C21 agree on results and bytes. Found by the automatic mutation sweep (swapping the two errors went unnoticed)."
 },
 "C143": {
  "status": "proved",
  "note": "C143_storage, C143_killed (crash after any number of block writes), C143_reopen, C143_last_flush. Complements C22 (one interrupted Flush)."
 },
 "C144": {
  "status": "proved",
  "note": "C144_kept, C144_killed (crash after any number of block writes), C144_clean (streams in use, for blocks not waiting to be flushed). The other side of C30: overwriting is never destructive because it is never stored."
 },
 "C145": {
  "status": "partial",
  "note": "FALSE for WriteTo and io.Copy (C145_refuted): every Write that fails makes the file longer, so there is always another block to read; C145_never_partial and C145_never_append_partial: a file that ends in the last block of its object, with a whole block left, is extended until memory is exhausted. Proved: ReadFrom in full (C145_readFrom_partial, also with failing storage); WriteTo never panics and keeps what is before the position (C145_writeTo_partial), and ends if the stream is not writable or its object is more than a block longer than the file (C145_ends_partial). C145_refused_partial: streams that cannot be read or written."
 },
 "C146": {
  "status": "partial",
  "note": "FALSE of the code (C146_refuted: a write over the first byte of a slice of 6 bytes returns nil, Sync returns nil, the slice is unchanged). Proved, for all histories: storage, size and number of blocks never change (C146_kept_partial), the flush callback is never called (C146_never_partial), Truncate and New with O_TRUNC never return nil (C146_truncate_partial, C146_new_partial), a write succeeds exactly if off/bpb + (off+len)/bpb is less than the number of blocks and is then seen by the stream (C146_write_partial), so what ends at the end of the storage can never be written (C146_last_partial); all that for WrapSlice (C146_slice_partial)."
 },
 "C147": {
  "status": "partial",
  "note": "FALSE of the code (C147_refuted: \"AB\" and \"AB \"). Proved: SameFile compares the names ignoring case (C147_names_partial), is an equivalence, implies the same on-disk form and the same Stat (C147_same_partial), and is exact for names without trailing spaces or empty extensions (C147_plain_partial). C147_exact_partial: for all names that can be stored, exactly when SameFile is wrong."
 },
 "C148": {
  "status": "proved",
  "note": "C148_open (New) and C148_history (all histories: same answers, same Size and Tell, same final object; the only way not to answer is a WriteTo/ReadFrom whose loop does not end in the machine either). The machine (Stream/Machine.lean) has no caches, blocks in storage or fixed-width arithmetic, except that the count of ReadFrom wraps."
 },
 "C149": {
  "status": "proved",
  "note": "C149_history, C149_synced, C149_reachable. The account (Stream/Storage.lean) uses only the machine of C148. That overwritten blocks are never stored is what the code does (C30 is refuted); this is the exact contract."
 },
 "C150": {
  "status": "proved",
  "note": "C150_delivered, C150_cut, C150_toBytes, C150_zipimage, C150_unzipimage. The assumption on the gzip library (NoticesCuts) is a hypothesis of the theorems; sealGzip is a codec proved to meet it."
 },
 "C151": {
  "status": "partial",
  "note": "FALSE: the gzip stream is closed even if reading the image failed, so a complete compressed image is left, of the bytes read without their last run (C151_refuted; exactly: C151_exact_partial, C151_accepted_partial, C151_zipimage_partial). True if it is writing that fails and not all was written (C151_writes_partial)."
 },
 "C152": {
  "status": "proved",
  "note": "C152_readAll, C152_again (the exact position afterwards and what a second io.ReadAll returns), C152_readAtLeast, C152_readFull, C152_copyN. The functions of package io are client programs written down in Stream/Clients.lean from the library's source (trusted transcription); the writer of io.CopyN has no ReadFrom method."
 },
 "C153": {
  "status": "partial",
  "note": "False as shipped: OpenFile panics (C153_refuted). With wrapObjectHandle keeping the handle, for names in the root (also through symbolic links) and names that O_CREATE creates there: C153_in_place_partial (methods that ask for no other size, any implementation whose ReadBlocks reads; the volume stays as it is, so what was written in place is lost, cf. C30, C146), C153_reader_partial (no write access: all methods), C153_all_partial (all methods and O_TRUNC, with callbacks that do not fail and a Resize that counts blocks, which is what the driver passes though api.go says bytes; O_TRUNC with O_SYNC gives the machine's error). C153_program_partial, C153_program_in_place_partial and C153_program_reader_partial say the same of whole programs: whatever else the program does with other files and the volume (short of writing to, truncating or removing what a path leads to), the file's answers are the machine's, on implementations that keep the object's contents apart (with C127)."
 },
 "C154": {
  "status": "proved",
  "note": "C154_unsynced (exact, for all opening flags but O_SYNC), C154_anew (O_TRUNC: everything is stored), C154_sync_between (with a Sync in between, bytes are lost: no error, the file shown and the file stored differ). The general account is C149."
 },
 "C155": {
  "status": "partial",
  "note": "FALSE of the code as shipped (OpenFile panics, C155_refuted) and with the wrapper repaired (C155_refuted_keeping: what overwrites existing blocks never reaches the volume, although Sync and Close return nil). Proved with the handle kept: the exact bytes in the volume for every history (C155_account_partial), in closed form if there is no Sync before Close (C155_unsynced_partial), and that a file opened with O_TRUNC or created, and not synced before Close, is stored completely and read back by ReadFile (C155_anew_partial). C155_program_partial: also while the program uses other files and the volume."
 },
 "C156": {
  "status": "proved",
  "note": "The machine (Fat8/Machine.lean) says what the driver does, including what C41, C42, C43, C69 find wrong: it reserves the wrong clusters, cannot mount what it did not format, writes clusters in the wrong place. A Truncate that fails is C70."
 },
 "C157": {
  "status": "proved",
  "note": "The statement does not mention the machine of C156: it compares the driver on the failing file with the same driver on a file that does not fail."
 },
 "C158": {
  "status": "partial",
  "note": "False of the code for Write: with O_SYNC a Write whose final Sync failed has moved the position and returned the full count with the error (C158_refuted), and a failed Write in append mode may have extended the file (C158_append_refuted), so the repeated Write is misplaced. Proved for all other calls, for Writes that returned 0 (in append mode: if Size is as before), for whole programs; proved that a Write or WriteAt that returned its full count with such an error has done everything but the Sync; and proved for WriteTo. Not covered: ReadFrom."
 },
 "C159": {
  "status": "proved",
  "note": "Liveness: every failed call inside the object has used up at least one failure of the storage (step_spent), so the retries end. A program that asks outside the object, or loads/flushes a cache of no blocks (C19), is refused for ever and is excluded by FitsIn."
 },
 "C160": {
  "status": "proved",
  "note": "C160_failures holds of any stream value, whether or not the storage keeps what it is given. Storage without a resize callback refuses every Truncate and is outside C160_failures; C160_gets_through does not need it. That a program with Write or Truncate ends with the right answers is not claimed: see C158. C160_close asks for an object of at least one block (on none Close always fails: C34); bytes written into blocks that were not added are not marked as modified by the code, and so not stored (C30)."
 }
}