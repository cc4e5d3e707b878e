{"id":"C01","title":"RLE8 round trip","statement":"Decompressing (DecompressRLE8) what CompressRLE8 wrote for any input returns exactly that input, with nil errors from both calls, including runs longer than 257 bytes and runs of every residue.","quantifier":"every byte sequence and every output that accepts writes","why_tests_cant":"Tests try a handful of literals and one random buffer; the round trip must hold for every input, and the hard cases are specific run lengths (258, 259, 515...) next to specific neighbours.","anchors":["utilities/compression/rle8.go:CompressRLE8","utilities/compression/rle8.go:DecompressRLE8"]}
{"id":"C02","title":"Run grouper returns the maximal runs","statement":"Calling GetNextRun repeatedly returns runs whose expansion, concatenated, is exactly the input, each of length at least 1, adjacent runs holding different bytes (as long as the input is shorter than math.MaxInt), ending with io.EOF; a non-EOF read error is returned with the invalid run.","quantifier":"every input byte sequence and every final reader condition (EOF or other error)","why_tests_cant":"The number of run shapes is unbounded and the EOF/unread interaction depends on where the input ends.","anchors":["utilities/compression/rle_grouper.go:RLEGrouper.GetNextRun"]}
{"id":"C03","title":"Compression byte counts and failed outputs","statement":"The count returned by CompressRLE8, DecompressRLE8, CompressRLERecursive and DecompressRLERecursive on success equals the number of bytes delivered to the output; if the output fails at any write, the error is returned, the bytes delivered are a prefix of the complete result and the returned count never exceeds the bytes delivered.","quantifier":"every input, every io.Writer obeying the io.Writer contract, every failure point","why_tests_cant":"A failure may happen at any of unboundedly many writes.","anchors":["utilities/compression/rle8.go:CompressRLE8","utilities/compression/rle8.go:DecompressRLE8","utilities/compression/rle8.go:CompressRLERecursive","utilities/compression/rle8.go:DecompressRLERecursive"]}
{"id":"C04","title":"DecompressRLE8 rejects exactly the truncated encodings","statement":"DecompressRLE8 on a readable input returns nil unless the input ends right after a pair of equal bytes that opens a group, and then the error wraps io.ErrUnexpectedEOF and everything before the unfinished group has already been written; it returns no other error.","quantifier":"every byte sequence given as compressed data","why_tests_cant":"Corrupted images are arbitrary byte sequences; tests try one.","anchors":["utilities/compression/rle8.go:DecompressRLE8"]}
{"id":"C05","title":"RLE8 output size","statement":"CompressRLE8 writes, per maximal run of n bytes, 3 bytes per full 257 bytes plus 0, 1 or 3 bytes for a remainder of 0, 1 or more; so output never exceeds 3/2 of the input, and a run of n equal bytes takes at most 3*ceil(n/257).","quantifier":"every input","why_tests_cant":"Worst-case expansion is a statement about all inputs.","anchors":["utilities/compression/rle8.go:CompressRLE8","utilities/compression/doc.go"]}
{"id":"C06","title":"Recursive RLE encoding is decodable","statement":"The bytes written by CompressRLERecursive determine the input: a reader that follows the documented format (pair, then count bytes summed up to and including the first that is not 255) recovers the input. When no run exceeds 256 bytes the output is identical to CompressRLE8's.","quantifier":"every input","why_tests_cant":"Injectivity is a statement about all pairs of inputs.","anchors":["utilities/compression/rle8.go:CompressRLERecursive"]}
{"id":"C07","title":"DecompressRLERecursive inverts CompressRLERecursive","statement":"DecompressRLERecursive applied to the output of CompressRLERecursive returns the original bytes.","quantifier":"every input","why_tests_cant":"There is no test at all; the claim is over all inputs.","anchors":["utilities/compression/rle8.go:DecompressRLERecursive","utilities/compression/rle8.go:CompressRLERecursive"]}
{"id":"C08","title":"Compressed image round trip","statement":"DecompressImage (and DecompressImageToBytes) applied to what CompressImage wrote returns the original image, and the size CompressImage returns is the number of bytes delivered to the output, for any lossless gzip implementation.","quantifier":"every image, every lossless stream codec in place of gzip, every output","why_tests_cant":"Tests run three images.","anchors":["utilities/compression/compression.go:CompressImage","utilities/compression/compression.go:DecompressImage","utilities/compression/compression.go:DecompressImageToBytes","utilities/compression/compression.go:countingWriter"]}
{"id":"C09","title":"Block cache behaves like a flat array of blocks","statement":"For any sequence of WriteAt, ReadAt, Resize, Flush, LoadAll, Data and GetSlice calls over any backing storage obeying the callback contract, each successful ReadAt/Data/GetSlice returns exactly what a plain byte array, initialised from the storage and updated by the successful writes and resizes, would return.","quantifier":"every operation history, block size, cache size, backing storage and pattern of callback failures","why_tests_cant":"The interaction of lazy loading, dirty tracking and partial-block writes depends on the whole history.","anchors":["file_systems/common/blockcache/blockcache.go:BlockCache"]}
{"id":"C10","title":"Flush makes the cache durable","statement":"After Flush returns nil, the backing storage holds, block for block, the contents a read of the cache would return, whatever operations (including failed flushes) came before, provided blocks were modified through WriteAt/Resize or marked dirty after modification.","quantifier":"every history of operations and callback failures","why_tests_cant":"Losing one dirty bit in one history loses user data.","anchors":["file_systems/common/blockcache/blockcache.go:BlockCache.Flush","file_systems/common/blockcache/blockcache.go:BlockCache.flushBlockRange"]}
{"id":"C11","title":"Block cache bounds checks are exact","statement":"ReadAt and WriteAt succeed on a range only if it lies inside the cache and fail with ErrArgumentOutOfRange, returning 0 and changing nothing, if it does not; the same for GetSlice and MarkBlockRangeDirty for every start and count.","quantifier":"every start block, buffer length, count, block size and cache size representable in Go","why_tests_cant":"Boundary and machine-integer overflow cases are astronomically many.","anchors":["file_systems/common/blockcache/blockcache.go:BlockCache.CheckBounds","file_systems/common/blockcache/blockcache.go:BlockCache.ReadAt","file_systems/common/blockcache/blockcache.go:BlockCache.WriteAt","file_systems/common/blockcache/blockcache.go:BlockCache.GetSlice","file_systems/common/blockcache/blockcache.go:BlockCache.MarkBlockRangeDirty"]}
{"id":"C12","title":"Failed cache operations change nothing","statement":"If ReadAt, WriteAt, GetSlice, LoadAll, Flush or Resize returns an error, the contents seen by later reads are the same as before the call, and no unflushed modification is forgotten.","quantifier":"every state and every callback failure point","why_tests_cant":"A callback can fail at any of unboundedly many calls.","anchors":["file_systems/common/blockcache/blockcache.go:BlockCache"]}
{"id":"C13","title":"Callback guarantees","statement":"The fetch and flush callbacks are only ever called with a block index in [0, TotalBlocks) and a buffer of exactly BytesPerBlock bytes.","quantifier":"every operation history","why_tests_cant":"Depends on every reachable state.","anchors":["file_systems/common/blockcache/blockcache.go:FetchBlockCallback","file_systems/common/blockcache/blockcache.go:FlushBlockCallback"]}
{"id":"C14","title":"A block is fetched at most once","statement":"Between resizes each block is successfully fetched from storage at most once, and never after it has been written or marked dirty, so a fetch can never overwrite unflushed data.","quantifier":"every operation history","why_tests_cant":"Depends on every reachable state.","anchors":["file_systems/common/blockcache/blockcache.go:BlockCache.loadBlockRange"]}
{"id":"C15","title":"Flush writes dirty blocks, only dirty blocks, once","statement":"Flush calls the flush callback exactly for the blocks modified since they were last flushed, once each and in increasing order, and a second Flush with no modification in between writes nothing.","quantifier":"every history and state","why_tests_cant":"Depends on every reachable state.","anchors":["file_systems/common/blockcache/blockcache.go:BlockCache.flushBlockRange"]}
{"id":"C16","title":"Resize keeps the prefix and appends zeros","statement":"A successful Resize(n) keeps the contents of the blocks below min(old, n), appends null blocks, marks the new blocks to be written by the next Flush, and sets TotalBlocks and Size; shrinking then growing yields null blocks, never old contents; a failed Resize changes nothing.","quantifier":"every state and every sequence of resizes","why_tests_cant":"Bit-map copying has byte-granular corner cases for every size modulo 8.","anchors":["file_systems/common/blockcache/blockcache.go:BlockCache.Resize"]}
{"id":"C17","title":"ReadAt reports the number of bytes placed in the buffer","statement":"ReadAt returns n = len(buffer) on success, never more than len(buffer).","quantifier":"every buffer length and block size","why_tests_cant":"Tests only use whole multiples of the block size.","anchors":["file_systems/common/blockcache/blockcache.go:BlockCache.ReadAt"]}
{"id":"C18","title":"GetMinBlocksForSize is the exact ceiling","statement":"GetMinBlocksForSize(size) is the least number of blocks whose total size is at least size.","quantifier":"every size and block size","why_tests_cant":"Overflow cases near 2^64.","anchors":["file_systems/common/blockcache/blockcache.go:BlockCache.GetMinBlocksForSize"]}
{"id":"C19","title":"An empty cache is a valid cache","statement":"Flush, LoadAll and Data on a cache with zero blocks succeed (there is nothing to do).","quantifier":"every block size and storage with zero blocks, in every history that reaches zero blocks","why_tests_cant":"Reached only through particular histories (resize to 0).","anchors":["file_systems/common/blockcache/blockcache.go:BlockCache.Flush","file_systems/common/blockcache/blockcache.go:BlockCache.LoadAll","file_systems/common/blockcache/blockcache.go:BlockCache.Data"]}
{"id":"C20","title":"Marking blocks dirty does not change contents","statement":"MarkBlockRangeDirty only schedules blocks to be written: it changes neither what reads return nor, after the next Flush, the contents of the storage.","quantifier":"every state, start and count","why_tests_cant":"Depends on which blocks were loaded before.","anchors":["file_systems/common/blockcache/blockcache.go:BlockCache.MarkBlockRangeDirty"]}
{"id":"C21","title":"A wrapped stream can be grown","statement":"A cache from WrapStream(..., allowResize=true) over a truncatable stream that was grown with Resize can be flushed, and then the stream holds the cache's contents.","quantifier":"every stream, block size and new size","why_tests_cant":"Needs resize followed by flush for every size.","anchors":["file_systems/common/blockcache/blockcache.go:WrapStream","file_systems/common/blockcache/blockcache.go:seekToBlock"]}
{"id":"C22","title":"Interrupted flush leaves every block old or new","statement":"If a flush stops at any block (callback error or crash), every other block of the storage holds either its contents before the flush or the cache's contents, and repeating the flush after the fault clears completes it.","quantifier":"every state, every interruption point","why_tests_cant":"Unboundedly many crash points.","anchors":["file_systems/common/blockcache/blockcache.go:BlockCache.flushBlockRange"]}
{"id":"C23","title":"Stream reads return exactly the file's bytes","statement":"ReadAt(buf, off) for off >= 0 returns n = min(len(buf), size-off) bytes equal to the file contents at off, with io.EOF exactly when fewer than len(buf) bytes were available (and the buffer is not empty).","quantifier":"every stream state, offset and buffer length","why_tests_cant":"All offset/length/block alignments.","anchors":["file_systems/common/basicstream/basicstream.go:BasicStream.ReadAt"]}
{"id":"C24","title":"Sequential reads make progress","statement":"Read advances the position by the number of bytes it returned, so consecutive reads return consecutive, non-repeated data.","quantifier":"every stream state and buffer length","why_tests_cant":"The end-of-file case depends on alignment of buffer and size.","anchors":["file_systems/common/basicstream/basicstream.go:BasicStream.Read"]}
{"id":"C25","title":"Access mode is enforced","statement":"A stream opened without write permission never changes the contents or the size, nor the storage unless modifications made through the cache before it was opened are still to be flushed, whatever sequence of calls is made; a stream opened without read permission never returns data.","quantifier":"every flag value and every call sequence","why_tests_cant":"All flag values and histories.","anchors":["file_systems/common/basicstream/basicstream.go:BasicStream","flags.go:IOFlags"]}
{"id":"C26","title":"Append mode","statement":"With O_APPEND every Write lands at the end of file at the time of the call whatever the position was, and WriteAt is refused without effect.","quantifier":"every stream state, position and buffer","why_tests_cant":"All states.","anchors":["file_systems/common/basicstream/basicstream.go:BasicStream.Write","file_systems/common/basicstream/basicstream.go:BasicStream.WriteAt"]}
{"id":"C27","title":"Seek arithmetic","statement":"Seek returns and sets origin+offset when that is not negative; otherwise (and for an unknown whence) it fails and leaves the position unchanged; the position is never negative in any history, even under int64 overflow.","quantifier":"every position, size, offset, whence and history","why_tests_cant":"Overflow and sign corner cases.","anchors":["file_systems/common/basicstream/basicstream.go:BasicStream.Seek","file_systems/common/basicstream/basicstream.go:BasicStream.Tell"]}
{"id":"C28","title":"Truncate keeps the prefix and extends with zeros","statement":"After Truncate(n) the size is n, bytes below min(old size, n) are unchanged and any bytes between the old size and n read as zero; a failed Truncate changes nothing.","quantifier":"every stream state and n","why_tests_cant":"Stale data in the last block depends on history.","anchors":["file_systems/common/basicstream/basicstream.go:BasicStream.Truncate"]}
{"id":"C29","title":"Write then read back","statement":"After Write/WriteAt returns nil, reading the same range returns the written bytes and bytes outside the range are unchanged; a write to a valid position on a resizable stream succeeds.","quantifier":"every stream state, offset and buffer","why_tests_cant":"All offset/length/block alignments.","anchors":["file_systems/common/basicstream/basicstream.go:BasicStream.Write","file_systems/common/basicstream/basicstream.go:BasicStream.WriteAt","file_systems/common/basicstream/basicstream.go:BasicStream.implWriteAt"]}
{"id":"C30","title":"Written data reaches the storage on Sync","statement":"After a successful write followed by a successful Sync or Close (or with O_SYNC), the storage holds the written bytes.","quantifier":"every stream state, offset and buffer","why_tests_cant":"Depends on which blocks are dirty in each history.","anchors":["file_systems/common/basicstream/basicstream.go:BasicStream.implWriteAt","file_systems/common/basicstream/basicstream.go:BasicStream.Sync"]}
{"id":"C31","title":"Writing past the end extends the file","statement":"A successful write ending beyond the end of file sets the size to the end of the write.","quantifier":"every stream state, offset and buffer","why_tests_cant":"Depends on slack in the last block.","anchors":["file_systems/common/basicstream/basicstream.go:BasicStream.implWriteAt"]}
{"id":"C32","title":"WriteTo copies the rest of the stream once","statement":"WriteTo passes exactly the bytes from the position to the end of the stream to the writer, in order, once, and returns their number; if the writer fails, WriteTo reports it.","quantifier":"every stream state and writer","why_tests_cant":"All block alignments, all failure points.","anchors":["file_systems/common/basicstream/basicstream.go:BasicStream.WriteTo"]}
{"id":"C33","title":"ReadFrom reports what it stored","statement":"ReadFrom returns nil only if every byte read from the source was written to the stream.","quantifier":"every source behaviour (chunking, errors) and stream state","why_tests_cant":"All chunkings and failures.","anchors":["file_systems/common/basicstream/basicstream.go:BasicStream.ReadFrom"]}
{"id":"C34","title":"Empty files can be synced and closed","statement":"Sync and Close on a stream whose file is empty succeed, and opening with O_TRUNC succeeds on a resizable file, also with O_SYNC.","quantifier":"every stream reaching size 0","why_tests_cant":"Reached through particular histories.","anchors":["file_systems/common/basicstream/basicstream.go:BasicStream.Close","file_systems/common/basicstream/basicstream.go:BasicStream.Sync","file_systems/common/basicstream/basicstream.go:New"]}
{"id":"C35","title":"OS open flags are translated faithfully","statement":"OSFlagsToIOFlags maps each access mode and each of append/create/exclusive/truncate/sync to its Disko flag, and sets nothing else, for every int; the result's predicates (Read, Write, Append, ...) agree with the OS meaning. For every flag word, also one that does not come from the OS, each predicate looks at its own bit.","quantifier":"every 64-bit flags value","why_tests_cant":"2^64 values.","anchors":["flags.go:OSFlagsToIOFlags","flags.go:IOFlags"]}
{"id":"C36","title":"File type predicates are consistent","statement":"IsDir, IsFile and IsSymlink are pairwise exclusive for a stat whose mode has at most one type bit, IsFile is exactly 'no type bit', and permission bits never affect them.","quantifier":"every 32-bit mode","why_tests_cant":"2^32 values.","anchors":["api.go:FileStat.IsDir","api.go:FileStat.IsFile","api.go:FileStat.IsSymlink"]}
{"id":"C37","title":"Error identity survives wrapping","statement":"An error produced from a Disko sentinel by any sequence of WithMessage and Wrap calls matches (errors.Is) that sentinel and every wrapped error, and matches no sentinel that was not involved. The same holds of an error made with NewError; two of those match exactly if their messages are equal.","quantifier":"every sequence of WithMessage/Wrap calls","why_tests_cant":"Unbounded chains.","anchors":["errors.go:customDriverError","errors.go:baseDiskoError"]}
{"id":"C38","title":"Error messages","statement":"Error() of a sentinel extended by WithMessage/Wrap is the messages joined with ': ' in order; CastToDriverError returns nil for nil and never changes an existing DriverError. For an error made with NewError the same holds, except that a WithMessage called first replaces its message.","quantifier":"every chain","why_tests_cant":"Unbounded chains.","anchors":["errors.go:CastToDriverError","errors.go:customDriverError.WithMessage"]}
{"id":"C39","title":"FAT8 geometry","statement":"GetGeometry succeeds exactly for 640, 1898 and 2002 blocks; the directory track splits exactly into directory entries, one info sector and three FAT copies; a FAT has room for one byte per cluster; clusters tile the data tracks.","quantifier":"every block count","why_tests_cant":"All uint values.","anchors":["file_systems/fat8/common.go:GetGeometry"]}
{"id":"C40","title":"FAT8 format layout","statement":"FormatImage on a blank image of a supported size produces exactly: 0xFF directory entries, a null info sector, three identical FAT copies, nulls elsewhere, and an image of the right size; on unsupported sizes it fails and writes nothing.","quantifier":"every size and initial image","why_tests_cant":"Tests compare an image with itself, so check nothing.","anchors":["file_systems/fat8/formattingdriver.go:FormatImage"]}
{"id":"C41","title":"Formatting reserves the directory","statement":"After FormatImage the FAT marks every cluster that overlaps the directory track as reserved, and no other cluster.","quantifier":"every supported geometry","why_tests_cant":"Tests do not check it.","anchors":["file_systems/fat8/formattingdriver.go:FormatImage"]}
{"id":"C42","title":"A formatted FAT8 image can be mounted","statement":"Mount by a new driver on an image produced by FormatImage succeeds.","quantifier":"every supported geometry","why_tests_cant":"Tests never mount.","anchors":["file_systems/fat8/driver.go:FAT8Driver.Mount"]}
{"id":"C43","title":"FAT8 cluster write/read round trip","statement":"WriteAbsoluteCluster(c, data) followed by ReadAbsoluteCluster(c) returns data, and other clusters are unchanged; ReadFileCluster and WriteFileCluster agree likewise.","quantifier":"every valid cluster, geometry and data","why_tests_cant":"All clusters and data.","anchors":["file_systems/fat8/iobase.go:ReadAbsoluteCluster","file_systems/fat8/iobase.go:WriteAbsoluteCluster","file_systems/fat8/iobase.go:ReadFileCluster","file_systems/fat8/iobase.go:WriteFileCluster"]}
{"id":"C44","title":"FAT8 block bounds","statement":"ReadDiskBlocks and WriteDiskBlocks accept exactly the ranges inside the image and reject all others without touching the image.","quantifier":"every start, count and image size","why_tests_cant":"Boundary cases for all sizes.","anchors":["file_systems/fat8/iobase.go:ReadDiskBlocks","file_systems/fat8/iobase.go:WriteDiskBlocks"]}
{"id":"C45","title":"FAT copies are checked and kept in step","statement":"On a formatted volume GetFAT succeeds exactly when the three on-disk copies are identical (unless the file fails) and then returns that copy; after a successful Flush of a mounted volume all three copies equal the driver's FAT and GetFAT returns it.","quantifier":"every image content and FAT content","why_tests_cant":"All byte contents.","anchors":["file_systems/fat8/iobase.go:GetFAT","file_systems/fat8/iobase.go:writeFAT"]}
{"id":"C46","title":"Free cluster list","statement":"After Mount the free list contains exactly the valid clusters the FAT marks free, without duplicates, also after remounting.","quantifier":"every FAT content","why_tests_cant":"All FAT contents and mount histories.","anchors":["file_systems/fat8/driver.go:FAT8Driver.Mount"]}
{"id":"C47","title":"FAT8 file names round trip","statement":"For every valid ASCII 6.3 name, BytesToFilename(FilenameToBytes(name)) is the upper-cased name, the on-disk form is exactly 9 bytes, too-long or empty names are rejected.","quantifier":"every name","why_tests_cant":"All names.","anchors":["file_systems/fat8/common.go:FilenameToBytes","file_systems/fat8/common.go:BytesToFilename"]}
{"id":"C48","title":"Distinct names stay distinct","statement":"Two ASCII names accepted by FilenameToBytes have the same on-disk form only if they are equal ignoring case.","quantifier":"every pair of names","why_tests_cant":"All pairs.","anchors":["file_systems/fat8/common.go:FilenameToBytes"]}
{"id":"C49","title":"FAT version determination","statement":"DetermineFATVersion gives 12 below 4085 clusters, 16 below 65525, else 32 (so it is monotone).","quantifier":"every cluster count","why_tests_cant":"All values.","anchors":["file_systems/fat/common.go:DetermineFATVersion"]}
{"id":"C50","title":"Accepted boot sectors are sane","statement":"A header accepted by NewFATBootSectorFromStream has a legal sector size, a power-of-two cluster size, clusters of at most 32768 bytes, consistent derived fields, and no root directory sectors on FAT32; any other header yields an error, never a panic.","quantifier":"every 40-byte header","why_tests_cant":"2^320 headers.","anchors":["file_systems/fat/common.go:NewFATBootSectorFromStream"]}
{"id":"C51","title":"Boot sector layout arithmetic","statement":"For a well-formed volume the computed number of data sectors, clusters, first data sector and root directory sectors equal those of the Microsoft specification.","quantifier":"every well-formed header","why_tests_cant":"All headers.","anchors":["file_systems/fat/common.go:NewFATBootSectorFromStream"]}
{"id":"C52","title":"Cluster chain listing","statement":"For a well-formed (finite, valid) chain listClusters returns exactly its clusters in order, getClusterInChain(first, i) returns the i-th of them and fails beyond the end; a chain running into an invalid cluster is reported as corruption.","quantifier":"every FAT content and chain","why_tests_cant":"All FATs.","anchors":["file_systems/fat/driverbase.go:listClusters","file_systems/fat/driverbase.go:getClusterInChain"]}
{"id":"C53","title":"Corrupted (cyclic) chains are reported","statement":"listClusters terminates on every FAT content.","quantifier":"every FAT content","why_tests_cant":"Termination on all inputs.","anchors":["file_systems/fat/driverbase.go:listClusters"]}
{"id":"C54","title":"Remove frees the file's clusters","statement":"A successful FAT Remove frees exactly the clusters of the removed file.","quantifier":"every FAT content and file","why_tests_cant":"All FATs.","anchors":["file_systems/fat/driverbase.go:Remove"]}
{"id":"C55","title":"Directory entry decoding","statement":"NewRawDirentFromBytes decodes every 32-byte on-disk entry into the fields at the offsets of the FAT specification.","quantifier":"every 32-byte entry","why_tests_cant":"2^256 entries.","anchors":["file_systems/fat/dirent.go:NewRawDirentFromBytes"]}
{"id":"C56","title":"FAT attributes map to file types","statement":"Entries with the directory attribute are reported as directories (IsDir) and others are not; read-only entries have no write permission for group/other.","quantifier":"every attribute byte","why_tests_cant":"All flags.","anchors":["file_systems/fat/dirent.go:AttrFlagsToFileMode","file_systems/fat/dirent.go:Dirent.IsDir"]}
{"id":"C57","title":"Dirent timestamps","statement":"Setting a timestamp before the FAT epoch fails and changes nothing; setting a later one succeeds and is returned by the getter; SetDeletedAt marks the entry deleted and GetDeletedAt returns the time set.","quantifier":"every timestamp and call sequence","why_tests_cant":"All histories.","anchors":["file_systems/fat/dirent.go:SetDeletedAt","file_systems/fat/dirent.go:SetCreatedAt"]}
{"id":"C58","title":"Unix v6 mode conversion","statement":"ConvertStandardFlagsToFS and ConvertFSFlagsToStandard are inverse on the representable modes; permissions, set-id bits and the file type survive the round trip for every inode flag word; unsupported types are rejected.","quantifier":"every 16-bit flag word and 32-bit mode","why_tests_cant":"All values.","anchors":["file_systems/unixv6/dirents.go:ConvertFSFlagsToStandard","file_systems/unixv6/dirents.go:ConvertStandardFlagsToFS"]}
{"id":"C59","title":"Unix v6 inode stat","statement":"RawInodeToStat reports the little-endian 24-bit size and the exact ceiling number of 512-byte blocks.","quantifier":"every inode","why_tests_cant":"All inodes.","anchors":["file_systems/unixv6/dirents.go:RawInodeToStat"]}
{"id":"C60","title":"Disk geometry size","statement":"DiskGeometry.TotalSizeBytes is the number of bits rounded up to bytes; GetPredefinedDiskGeometry finds every listed slug and rejects all others.","quantifier":"every geometry without overflow and every slug string","why_tests_cant":"All geometries and strings.","anchors":["disks/disks.go:DiskGeometry.TotalSizeBytes","disks/disks.go:GetPredefinedDiskGeometry"]}
{"id":"C61","title":"NormalizePath yields a clean absolute path","statement":"NormalizePath returns an absolute path without empty, '.' or '..' components, is idempotent, resolves relative paths against the working directory and never escapes the root.","quantifier":"every path string and working directory","why_tests_cant":"All strings.","anchors":["driver/driver.go:BaseDriver.NormalizePath"]}
{"id":"C62","title":"Path resolution terminates and finds objects","statement":"Resolving a normalized path that names an existing object returns that object; resolution always terminates.","quantifier":"every path and directory tree","why_tests_cant":"All trees and paths.","anchors":["driver/driver.go:getObjectAtPathNoFollow","driver/driver.go:getObjectAtPathFollowingLink","driver/fsobject.go:wrapObjectHandle"]}
{"id":"C63","title":"Symlink cycles are detected","statement":"Following symbolic links terminates: it returns the final non-link object or ErrLinkCycleDetected.","quantifier":"every symlink graph","why_tests_cant":"All graphs.","anchors":["driver/driver.go:resolveSymlink"]}
{"id":"C64","title":"Read-only mounts reject write opens","statement":"On a mount without write permission OpenFile with write or truncate intent fails with ErrReadOnlyFileSystem before touching the implementation; with write permission it is never refused for that reason; no object is created on such a mount.","quantifier":"every flags, mount flags and path","why_tests_cant":"All combinations.","anchors":["driver/driver.go:OpenFile","flags.go:RequiresWritePerm"]}
{"id":"C65","title":"Directory listing pages","statement":"Successive File.ReadDir(n) calls return each entry of the directory exactly once and in order, at most n per call, then io.EOF, whatever the sequence of n.","quantifier":"every directory size and sequence of page sizes","why_tests_cant":"All sequences.","anchors":["driver/file.go:File.ReadDir"]}
{"id":"C66","title":"Resizing a file through its handle uses bytes","statement":"When a File is truncated or extended, the object handle is asked to resize to (at least) that many bytes.","quantifier":"every size and block size","why_tests_cant":"All sizes.","anchors":["driver/file.go:NewFileFromObjectHandle"]}
{"id":"C67","title":"Stream calls never panic","statement":"No call on an open stream panics, whatever its arguments and the state of the stream; apart from WriteTo and ReadFrom with endless peers every call returns.","quantifier":"every history and every argument","why_tests_cant":"All histories and arguments.","anchors":["file_systems/common/basicstream/basicstream.go:BasicStream"]}
{"id":"C68","title":"A failed write leaves the file as it was","statement":"A Write or WriteAt that returns 0 and an error does not change the contents or the size of the file.","quantifier":"every history, buffer, offset and callback failure","why_tests_cant":"All failure points and histories.","anchors":["file_systems/common/basicstream/basicstream.go:implWriteAt"]}
{"id":"C69","title":"Formatting gives an empty volume","statement":"A successful FormatImage leaves an empty volume whatever the image held before; no byte of the old contents survives.","quantifier":"every previous image and geometry","why_tests_cant":"All previous contents.","anchors":["file_systems/fat8/formattingdriver.go:FormatImage"]}
{"id":"C70","title":"Formatting reports failures","statement":"If FormatImage reports success the image has the requested size and a complete directory track, whatever operations on the file failed.","quantifier":"every failure pattern of the image file","why_tests_cant":"All failure points.","anchors":["file_systems/fat8/formattingdriver.go:FormatImage"]}
{"id":"C71","title":"Mounted volumes are protected","statement":"While a volume is mounted Mount and FormatImage are refused and change nothing; exactly a successful Mount mounts; a volume can be unmounted and mounted again.","quantifier":"every history","why_tests_cant":"All histories.","anchors":["file_systems/fat8/driver.go:FAT8Driver.Mount","file_systems/fat8/formattingdriver.go:FormatImage","file_systems/fat8/driver.go:FAT8Driver.Unmount"]}
{"id":"C72","title":"FAT8 Stat","statement":"Stat finds a known file under its name in any case with or without a leading slash, and reports its size: the blocks of its clusters minus the unused ones, times 128.","quantifier":"every name, path and directory entry","why_tests_cant":"All names and entries.","anchors":["file_systems/fat8/readingdriver.go:Stat"]}
{"id":"C73","title":"FAT8 FSStat","statement":"After FormatImage FSStat describes the volume: block size times total blocks is the image size, free blocks are the data blocks outside the directory track, free files are the 16-byte entries of the directory.","quantifier":"every supported geometry and history","why_tests_cant":"All geometries and previous states.","anchors":["file_systems/fat8/driver.go:FSStat","file_systems/fat8/formattingdriver.go:FormatImage"]}
{"id":"C74","title":"Unix v6 character devices follow the os.FileMode convention","statement":"A character device inode is reported as os reports one (ModeDevice|ModeCharDevice), and such a mode converts to a character device inode.","quantifier":"every 16-bit flag word and 32-bit mode","why_tests_cant":"All values.","anchors":["file_systems/unixv6/dirents.go:ConvertFSFlagsToStandard","file_systems/unixv6/dirents.go:ConvertStandardFlagsToFS"]}
{"id":"C75","title":"FAT timestamps decode to the recorded moment","statement":"DateFromInt and TimestampFromParts return the date and time that the FAT specification encodes in the given words (day, month, year since 1980; hours, minutes, two-second units, hundredths), for every pair of words.","quantifier":"all 16-bit date and time words and 8-bit hundredths, all calendars","why_tests_cant":"2^40 encodings; the existing code never returns on any of them, which a type-checked build hides","anchors":["file_systems/fat/dirent.go: DateFromInt","file_systems/fat/dirent.go: TimestampFromParts"]}
{"id":"C76","title":"FAT ReadFile returns the file's bytes","statement":"ReadFile of an existing file returns the contents of the clusters of its chain in order, cut at the file's size.","quantifier":"all volumes, chains of any length, sizes and cluster contents","why_tests_cant":"unbounded chains and sizes, and any behaviour of the version-specific driver","anchors":["file_systems/fat/driverbase.go: ReadFile"]}
{"id":"C77","title":"FAT path lookup","statement":"Stat of an existing file returns its information, Stat of a path that does not exist fails with ErrNotFound, and a failure to read the root directory is passed on.","quantifier":"all root directories, paths and driver behaviours","why_tests_cant":"all directory contents and paths","anchors":["file_systems/fat/driverbase.go: Stat","file_systems/fat/driverbase.go: resolvePathToDirent"]}
{"id":"C78","title":"FAT Chmod","statement":"Chmod stores the entry it found with write permission set for all or for none according to the mode, changes nothing else, and makes the file read-only exactly when no one has write permission.","quantifier":"all modes (32 bits), entries and volumes","why_tests_cant":"2^32 modes for every entry","anchors":["file_systems/fat/driverbase.go: Chmod"]}
{"id":"C79","title":"FAT Chtimes","statement":"Chtimes stores both times in the entry and nothing else, and fails if either is before the FAT epoch.","quantifier":"all pairs of times, entries and volumes","why_tests_cant":"all times and entries","anchors":["file_systems/fat/driverbase.go: Chtimes","file_systems/fat/dirent.go: SetLastAccessedAt"]}
{"id":"C80","title":"FAT cluster reads","statement":"Reading a cluster returns the whole cluster, from the place where the FAT layout puts it.","quantifier":"all boot sectors, cluster numbers and disk contents","why_tests_cant":"all geometries and contents; a test on a one-sector cluster at sector 1 cannot see the errors","anchors":["file_systems/fat/driverbase.go: readCluster","file_systems/fat/driverbase.go: readAbsoluteSectors","file_systems/fat/driverbase.go: getFirstSectorOfCluster"]}
{"id":"C81","title":"ReadFile returns the contents","statement":"ReadFile on any path that means an existing object returns exactly the bytes of that object and changes nothing; a failing block read is reported as an I/O error carrying the cause, a missing object with the error of the lookup.","quantifier":"all file system implementations, trees, paths and spellings, contents","why_tests_cant":"all implementations, all trees and path spellings","anchors":["driver/driver.go: ReadFile","driver/driver.go: getContentsOfObject","driver/driver.go: getObjectAtPathFollowingLink"]}
{"id":"C82","title":"Queries change nothing","statement":"Stat, Lstat, ReadFile, Readlink, ReadDir, Chdir, Open, and reading or listing through an open file never change the file system, whether they succeed or fail.","quantifier":"all implementations whose lookups, reads and listings change nothing; all states, paths and file handles","why_tests_cant":"all implementations and error paths","anchors":["driver/driver.go: Stat","driver/driver.go: ReadDir","driver/driver.go: ReadFile","driver/file.go: ReadDir"]}
{"id":"C83","title":"Working directory","statement":"Getwd always returns a canonical absolute path; Chdir succeeds exactly on what Stat calls a directory, fails with ErrNotADirectory on other objects and with Stat's error otherwise, and afterwards Getwd is the canonical path of that directory.","quantifier":"all histories of Chdir and File.Chdir over all implementations; all paths","why_tests_cant":"all histories and implementations","anchors":["driver/driver.go: Chdir","driver/driver.go: chdirToObject","driver/driver.go: Getwd","driver/file.go: Chdir"]}
{"id":"C84","title":"Lstat does not follow links","statement":"Lstat describes the object with the given name itself; if it is a symbolic link, the link and not its target.","quantifier":"all implementations, states, names","why_tests_cant":"all implementations and link structures","anchors":["driver/driver.go: Lstat","driver/driver.go: resolveSymlink"]}
{"id":"C85","title":"Readlink returns the link text","statement":"Readlink returns the text of the link without following it, ErrInvalidArgument on anything that is not a link, ErrNotSupported if the file system has no links, and the lookup's error if there is no such object.","quantifier":"all implementations, names and link texts","why_tests_cant":"all implementations, texts and spellings","anchors":["driver/driver.go: Readlink"]}
{"id":"C86","title":"Remove","statement":"Remove removes exactly the object with the given path: a file, a link or an empty directory disappears and nothing else changes; a directory that is not empty is refused with ErrDirectoryNotEmpty and unchanged; a missing object gives the lookup's error.","quantifier":"all implementations and volumes, working directories, path spellings, contents","why_tests_cant":"all trees, implementations and spellings","anchors":["driver/driver.go: Remove","driver/driver.go: removeDotsFromSlice","api.go: ObjectHandle.Unlink"]}
{"id":"C87","title":"RemoveAll","statement":"RemoveAll of a directory other than the root removes that directory with everything below it and nothing else; the root is refused with ErrPermissionDenied.","quantifier":"all volumes of any depth, working directories, path spellings","why_tests_cant":"trees of any depth and width","anchors":["driver/driver.go: RemoveAll","driver/driver.go: removeDirectory"]}
{"id":"C88","title":"Relative links","statement":"A symbolic link with a relative text leads to what the text means from the directory the link is in.","quantifier":"all implementations, working directories, links in the root","why_tests_cant":"all working directories and texts","anchors":["driver/driver.go: resolveSymlink","driver/driver.go: NormalizePath"]}
{"id":"C89","title":"Mkdir","statement":"Mkdir of a path whose parent directory exists and that does not exist itself makes one directory there, with the permission bits asked for, and nothing else; a path that exists is refused and nothing changes.","quantifier":"all implementations and volumes, working directories, path spellings, permissions","why_tests_cant":"all implementations, trees and path spellings","anchors":["driver/driver.go: Mkdir","api.go: CreateObject"]}
{"id":"C90","title":"MkdirAll","statement":"MkdirAll makes all missing directories of a path and succeeds also if all exist.","quantifier":"all volumes, working directories, path spellings, depths","why_tests_cant":"trees and paths of any depth","anchors":["driver/driver.go: MkdirAll","driver/driver.go: createDirectory"]}
{"id":"C91","title":"Opening and creating files","statement":"OpenFile with O_CREATE of a missing path makes a regular file there, nothing else, and opens it; without O_CREATE it says ErrNotFound and changes nothing; an existing file is opened without changes; what is not a file is refused.","quantifier":"all implementations, volumes, working directories, path spellings, flags, permissions","why_tests_cant":"all flags, implementations and spellings","anchors":["driver/driver.go: OpenFile","file.go: newFileFromObjectHandle"]}
{"id":"C92","title":"Exclusive creation","statement":"With O_CREATE and O_EXCL, so with Create, a path that exists is refused with ErrExists and nothing changes.","quantifier":"all volumes, flags, path spellings, kinds of objects","why_tests_cant":"all implementations and flags","anchors":["driver/driver.go: OpenFile","driver/driver.go: Create","flags.go: O_EXCL"]}
{"id":"C93","title":"Truncating","statement":"O_TRUNC with write access, and Truncate, resize exactly the file the path leads to to 0 bytes; directories are refused; a missing object gives the lookup's error.","quantifier":"all implementations, working directories, path spellings, flags","why_tests_cant":"all flags, implementations and spellings","anchors":["driver/driver.go: Truncate","driver/driver.go: OpenFile","file.go: newFileFromObjectHandle"]}
{"id":"C94","title":"Hard links","statement":"Link makes one hard link to what the old path leads to, in the directory of the new path; it is refused, without changes, if the old object is missing or a directory, if the new path exists in any form, or if the implementation has no hard links.","quantifier":"all implementations, working directories, spellings of both paths","why_tests_cant":"all implementations and states","anchors":["driver/driver.go: Link","api.go: SupportsHardLinks"]}
{"id":"C95","title":"O_NOFOLLOW","statement":"OpenFile with O_NOFOLLOW does not open what a symbolic link leads to.","quantifier":"all implementations, links, flags","why_tests_cant":"all flags and implementations","anchors":["driver/driver.go: OpenFile","flags.go: O_NOFOLLOW"]}
{"id":"C96","title":"ReadDir","statement":"ReadDir of a directory returns one entry for each object directly in it, with its name and type, without \".\" and \"..\", and changes nothing; of a file it fails with ErrNotADirectory; the first error of the implementation is returned.","quantifier":"all implementations and volumes, working directories, path spellings, directory contents","why_tests_cant":"directories of any size and all implementations","anchors":["driver/driver.go: ReadDir","file.go: DirectoryEntry","api.go: SupportsListDirHandle"]}
{"id":"C97","title":"Attributes","statement":"Chmod, Chown, Lchown and Chtimes call the implementation's method once for the object the path leads to (Lchown: the object itself, even if it is a link), with only the permission bits of the mode, and with undefined timestamps for times the file system does not record; without such a method they fail and change nothing.","quantifier":"all implementations, working directories, path spellings, modes, owners, times","why_tests_cant":"all implementations and arguments","anchors":["driver/driver.go: Chmod","driver/driver.go: Chown","driver/driver.go: Lchown","driver/driver.go: Chtimes","file.go: Chmod","api.go: SupportsChmodHandle"]}
{"id":"C98","title":"Mount flags","statement":"On a file system mounted without write permission no call changes anything.","quantifier":"all implementations, states, calls and arguments","why_tests_cant":"all implementations, calls and arguments","anchors":["driver/driver.go: Remove","driver/driver.go: Mkdir","driver/driver.go: Truncate","driver/driver.go: WriteFile","types.go: MountFlags"]}
{"id":"C99","title":"SameFile","statement":"SameFile of the information of two objects that exist tells whether they are the same object, as SameAs of the implementation does.","quantifier":"all implementations, states and pairs of objects","why_tests_cant":"all implementations, also those without inode numbers","anchors":["driver/driver.go: SameFile","api.go: SameAs","api.go: FileStat"]}
{"id":"C100","title":"os.FileInfo and os.DirEntry","statement":"A directory entry and File.Stat describe the object: its name, its type bits (Type), its mode, size, modification time and information (Sys), at the time of the call.","quantifier":"all names, modes, paths, implementations and opened files","why_tests_cant":"all modes and paths, all states","anchors":["driver/dirent.go: DirectoryEntry","driver/file.go: FileInfo","driver/file.go: File.Stat"]}
{"id":"C101","title":"WriteFile","statement":"After WriteFile the file has exactly the given contents, created if missing; it fails if the implementation fails to take the data, and only then.","quantifier":"all implementations, files, contents of any length, block sizes","why_tests_cant":"contents of any length relative to the block size, failures of any call","anchors":["driver/driver.go: WriteFile","driver/driver.go: OpenFile","driver/file.go: Close","file_systems/common/basicstream/basicstream.go: Write"]}
{"id":"C102","title":"An operation makes only the calls it is for","statement":"Whenever an operation returns, the calls it has made on the implementation are of the kinds it is for: Stat, Lstat, ReadFile, Readlink, Chdir and Open make GetObject, ReadBlocks and Close calls only; ReadDir also ListDir; Chmod, Chown, Lchown and Chtimes also the one call they are named after, with the values given and, for Chtimes, UndefinedTimestamp for every time not given or not supported; Truncate also Resize to 0; Remove and RemoveAll also ListDir and Unlink; Link also CreateHardLink; Mkdir and MkdirAll also CreateObject with the given permissions as a directory; OpenFile also CreateObject with the given mode if O_CREATE is set and Resize to 0 if O_TRUNC is set; WriteFile also CreateObject, Resize and WriteBlocks; Read, Write, Truncate and Close of a file only concern the file's own object.","quantifier":"all implementations, however they behave, states, paths, working directories, mount flags, flags, permissions, data, and the code as it is as well as with either repair of the wrapper","why_tests_cant":"all implementations and all ways through path resolution, with any number of symbolic links and errors at any call","anchors":["driver/driver.go: every method","driver/file.go: File","file_systems/common/basicstream/basicstream.go","file_systems/common/blockcache/blockcache.go"]}
{"id":"C103","title":"ReadBlocks is called within the object","statement":"Whenever an operation on a path, or the opening of a file followed by any number of reads, returns, every ReadBlocks call it has made was for a non-zero whole number of blocks all of which exist in the object as its Stat describes it at that moment.","quantifier":"all implementations in which ReadBlocks changes nothing, states, paths, working directories, mount flags, flags, read lengths, objects of less than 2^64 bytes, and the code as it is as well as with either repair of the wrapper","why_tests_cant":"all object sizes and block sizes, including zero, negative and overflowing ones, and all sequences of reads","anchors":["api.go: ObjectHandle.ReadBlocks guarantees","driver/driver.go","driver/file.go","file_systems/common/blockcache/blockcache.go: GetSlice, loadBlockRange"]}
{"id":"C104","title":"WriteBlocks is called within the object","statement":"Whenever WriteFile, or any sequence of calls of a file opened with any flags, returns, every WriteBlocks call it has made was for a whole number of blocks all of which exist in the object at that moment.","quantifier":"all implementations with a fixed block size per object, states, paths, flags, data and sequences of file calls","why_tests_cant":"all sizes of data and blocks and all sequences of reads, writes, truncations and closes","anchors":["api.go: ObjectHandle.WriteBlocks guarantees","driver/file.go: NewFileFromObjectHandle","driver/driver.go: WriteFile","file_systems/common/blockcache/blockcache.go: FlushAll"]}
{"id":"C105","title":"Unlink is called on a directory only when it is empty","statement":"Whenever Remove or RemoveAll returns, however it ends, every Unlink call it has made on a directory was made when ListDir of that directory gives nothing but \".\" and \"..\".","quantifier":"Remove: all implementations in which listing changes nothing; RemoveAll: all implementations that obey the laws of a volume; all states, trees of any depth and width, paths, working directories, mount flags, and the code as it is as well as with either repair of the wrapper","why_tests_cant":"all trees and all orders of removal; errors may stop the removal at any point","anchors":["api.go:269-272: ObjectHandle.Unlink","driver/driver.go: Remove, RemoveAll, removeDirectory, removeDotsFromSlice"]}
{"id":"C106","title":"The exit status of zipimage and unzipimage tells what happened","statement":"Given a program name and a wrong number of arguments, the commands change nothing and exit with 1. With three, the exit status is 0, 1 or 2; the size is printed exactly when it is 0; it is 1 exactly when the input cannot be opened or the output cannot be created, and then nothing has changed; otherwise nothing but the output file has changed.","quantifier":"all contents of the computer, with any names for the same file, permissions, bad files and any amount of free space; all arguments; any lossless gzip","why_tests_cant":"all contents of files, and a failure at every possible byte","anchors":["cmd/zipimage/main.go","cmd/unzipimage/main.go"]}
{"id":"C107","title":"What zipimage writes stands for its input","statement":"If zipimage exits with 0, all of the input has been read, decompressing the output gives the input, and the size printed is that of the output; with enough room it does exit with 0.","quantifier":"all contents of the computer, with any names for the same file, bad files and any amount of free space; any lossless gzip","why_tests_cant":"all contents of files, and a failure at every possible byte","anchors":["cmd/zipimage/main.go","utilities/compression/compression.go: CompressImage"]}
{"id":"C108","title":"unzipimage gives back the image or leaves the output alone","statement":"If unzipimage exits with 0, the input is a gzip file of RLE8 data and the output is what it stands for; zipimage followed by unzipimage gives back the contents of the file; if unzipimage does not exit with 0 the output file is as it was.","quantifier":"all contents of the computer, with any names for the same file, bad files and any amount of free space; any lossless gzip","why_tests_cant":"all contents of files, and a failure at every possible byte","anchors":["cmd/unzipimage/main.go","utilities/compression/compression.go: DecompressImage"]}
{"id":"C109","title":"Deleting directory entries removes exactly their subtrees","statement":"In the database the schema script sets up, deleting directory entries succeeds (within the nesting depth the engine allows), and removes these entries and everything below them at any depth and no other entry; deleting inodes removes exactly these inodes and the entries leading to them with what is below.","quantifier":"All contents of the tables that satisfy the constraints, all sets of entries or inodes to delete, all nesting depths (cycles of parents included), all times.","why_tests_cant":"The tree may have any shape and depth, and the cascade meets rows that other branches of it have already deleted.","anchors":["file_systems/common/init.sql: dirents, inodes, trg_decrement_nlinks, trg_deallocate_blocks"]}
{"id":"C110","title":"Link counts and the freeing of blocks follow the entries","statement":"The link count of an inode that has directory entries is their number, however entries are inserted and deleted; deleting entries frees the blocks of an inode and sets its deletion time exactly when none is left.","quantifier":"All histories of inserting inodes, entries and blocks and deleting entries; all contents of the tables.","why_tests_cant":"One statement deletes any number of entries of the same inode in a cascade whose triggers run one after the other.","anchors":["file_systems/common/init.sql: trg_decrement_nlinks, trg_deallocate_blocks"]}
{"id":"C111","title":"The tables never contain dangling references or duplicate keys","statement":"After any sequence of statements, failed ones included, ids are unique, every entry's inode and parent and every block's inode exist, names are unique below one parent and sequence numbers within one inode.","quantifier":"All sequences of INSERT, UPDATE and DELETE statements on the three tables, at any times, with any depth limit.","why_tests_cant":"Cascades delete any number of rows of two tables; the property must hold after every history.","anchors":["file_systems/common/init.sql: inodes, dirents, allocated_blocks"]}
{"id":"C112","title":"Names are unique in every directory of the database","statement":"No two entries of one directory, the root included, have the same name.","quantifier":"All sequences of statements.","why_tests_cant":"Must hold after every history.","anchors":["file_systems/common/init.sql: dirents (UNIQUE(parent_dirent_id, name), parent_dirent_id may be null in the root)"]}
{"id":"C113","title":"A cache over any stream behaves as the stream's bytes","statement":"WrapStream over any io.ReadWriteSeeker that obeys the contracts of the io package (Read may return fewer bytes than asked for, every method may fail at any time) and is at least as long as the cached object gives a cache on which every history of operations has the results of a flat byte array that starts as the stream's bytes; a successful Flush puts the contents on the stream.","quantifier":"All streams, contents, block sizes and counts, all sequences of operations, all patterns of failures.","why_tests_cant":"Tests use in-memory streams whose Read fills the buffer; the contract allows any length and any failure at any call.","anchors":["file_systems/common/blockcache/blockcache.go: WrapStream, seekToBlock"]}
{"id":"C114","title":"WrapSlice serves the whole blocks of the slice and never touches the rest","statement":"WrapSlice panics for block size 0; otherwise it gives a cache of the slice's whole blocks on which every history of operations has the results of a flat byte array starting as these bytes. The only errors are ranges outside it, and Resize, which is never permitted. The number of blocks, the slice's length and the bytes after the last whole block never change; Flush succeeds unless there is no whole block, and leaves the slice as the contents followed by these bytes.","quantifier":"All slices, all block sizes, all sequences of operations.","why_tests_cant":"Block sizes that do not divide the length, and all histories.","anchors":["file_systems/common/blockcache/blockcache.go: WrapSlice, WrapStream, seekToBlock"]}
{"id":"C115","title":"The inferred size is the stream's number of whole blocks","statement":"WrapStreamWithInferredSize gives a cache with as many blocks as the stream has whole blocks, over which every history of operations has the results of a flat byte array starting as these bytes.","quantifier":"All streams, all block sizes other than 0, all sequences of operations.","why_tests_cant":"Streams may fail at any call and have any length.","anchors":["file_systems/common/blockcache/blockcache.go: WrapStreamWithInferredSize"]}
{"id":"C116","title":"NopObjectHandle answers every method with ErrNotImplemented","statement":"Every method of a NopObjectHandle returns without panicking; methods that return an error return ErrNotImplemented, every other value returned is the zero value, and a buffer given to ReadBlocks keeps its bytes.","quantifier":"All methods of ObjectHandle, of its optional interfaces and of the driver's extended handle, with all arguments.","why_tests_cant":"The claim is about every method with every argument; a test calls some of them, and nothing in the type system shows which methods are promoted from a nil embedded interface.","anchors":["driver/nopobject.go: NopObjectHandle","driver/fsobject.go: extObjectHandle","api.go: ObjectHandle"]}
{"id":"C117","title":"FAT8 names have nine bytes on disk","statement":"Whenever FilenameToBytes accepts a name, whatever its characters, the result has exactly nine bytes, the size of the name field of a directory entry; it is the upper-cased stem padded with spaces to six characters (nine if there is no extension) followed by the extension padded to three.","quantifier":"All byte strings as names, valid UTF-8 or not; any case mapping of non-ASCII characters.","why_tests_cant":"Names range over all strings; padding counts characters, the length checks count bytes and upper-casing can change the number of bytes, so the result's length depends on every character.","anchors":["file_systems/fat8/common.go: FilenameToBytes"]}
{"id":"C118","title":"On-disk FAT8 names survive reading and writing back","statement":"The file name BytesToFilename gives for the nine bytes of a directory entry (not blank, upper case, no period among the first six) is turned back into the same nine bytes by FilenameToBytes; in particular different entries have different file names.","quantifier":"All nine-byte on-disk names.","why_tests_cant":"There are 2^72 on-disk names, including bytes that are not UTF-8, which the string functions replace.","anchors":["file_systems/fat8/common.go: BytesToFilename, FilenameToBytes"]}
{"id":"C119","title":"FAT SameFile","statement":"FATDriver.SameFile says of any two entries the driver returned whether they are the same file, i.e. begin at the same cluster, and does not panic.","quantifier":"All pairs of directory entries.","why_tests_cant":"The claim is about all pairs of entries; the failure is in a type assertion that the compiler accepts.","anchors":["file_systems/fat/driverbase.go: FATDriver.SameFile","file_systems/fat/dirent.go: Dirent.Sys"]}
{"id":"C120","title":"FAT TimeToTimespec","statement":"TimeToTimespec returns the same moment, with nanoseconds between 0 and 999999999.","quantifier":"All times.","why_tests_cant":"Times range over 2^64 seconds; the conversion goes through a 64-bit number of nanoseconds.","anchors":["file_systems/fat/dirent.go: TimeToTimespec"]}
{"id":"C121","title":"FAT8 FormatImage with FSStat options","statement":"Given an FSStat, FormatImage formats exactly when its TotalBlocks is 640, 1898 or 2002; no other field needs to be set. Otherwise it fails and nothing changes.","quantifier":"All FSStats, files and unmounted drivers.","why_tests_cant":"The fields are 64-bit numbers and their product wraps around.","anchors":["file_systems/fat8/formattingdriver.go: FormatImage","api.go: FSStat.TotalSizeBytes"]}
{"id":"C122","title":"No object handle is used after it has been closed","statement":"Whatever calls a program makes on a mounted volume and on the files it opens, in whatever order, whether they succeed or fail: once the driver has closed an object handle it got from the file system implementation it calls no method on it but Close. If the implementation gives garbage for closed handles (their Stat, Name and SameAs say anything), what the program sees does not change.","quantifier":"All file system implementations, all mount flags, all histories of calls of any length (22 operations, 15 methods of open files), all answers of closed handles, all configurations of the model (the shipped code included).","why_tests_cant":"It is a property of all histories: a handle closed by one branch on an error path may be used much later by another, and an implementation whose handles survive Close hides the error.","anchors":["api.go: ObjectHandle.Close (290-296)","driver/driver.go: getObjectAtPathNoFollow, getObjectAtPathFollowingLink, resolveSymlink, Lstat, ReadDir, Remove, RemoveAll, Link, OpenFile, WriteFile","driver/file.go"]}
{"id":"C123","title":"Every operation closes the handles it gets","statement":"An operation on a path has closed all object handles it got from the implementation when it returns, with or without an error; an operation that opens a file has, when the file has been closed.","quantifier":"All implementations, paths, arguments, histories and outcomes (errors included).","why_tests_cant":"Every error path of every operation has to close; a leak is invisible to the caller.","anchors":["api.go: ObjectHandle.Close","driver/driver.go: Chmod, Chown, Lchown, Chtimes, Link, WriteFile, OpenFile","driver/file.go: File.Close"]}
{"id":"C124","title":"Caching is invisible","statement":"Two open streams that show the same object (the same bytes, block size, size, position and access mode) answer every sequence of calls alike, whatever each of them has cached, loaded or still to write, and whatever storage is below them. In particular ReadAt and Sync never change what any later call answers.","quantifier":"All storages whose callbacks do not fail, all pairs of reachable streams with equal visible state, all histories of Read, ReadAt, Seek, Sync, Truncate, Write, WriteAt, WriteTo and ReadFrom calls whose numbers fit in 64 bits, with Size and Tell observed after each.","why_tests_cant":"It compares all histories from all pairs of cache states; a stale loaded or dirty bit shows up only in a particular order of calls.","anchors":["file_systems/common/basicstream.go: BasicStream","file_systems/common/blockcache/blockcache.go: BlockCache"]}
{"id":"C125","title":"On a read-only mount no data is ever written","statement":"On a volume mounted without write permission, whatever calls a program makes on the volume and on the files it opens, in whatever order: the driver never writes a block of any object and resizes none, except to nothing by Truncate. All other calls it makes on the implementation look up, read, list or close, or are what an operation of the history that does not check the mount flags (Mkdir, Remove, Link, Chmod, ..., OpenFile with O_CREATE but without write access) is for, with that operation's arguments.","quantifier":"All implementations, all mount flags without the write bit, all histories of calls of any length (22 operations, 15 methods of open files), all configurations of the model.","why_tests_cant":"It is a property of all histories: a file opened long ago may still write when it is synced, truncated or closed.","anchors":["api.go: MountFlags","driver/driver.go: OpenFile, Create, WriteFile, Truncate","driver/file.go: File","file_systems/common/basicstream/basicstream.go: Write, WriteAt, Truncate, Sync"]}
{"id":"C126","title":"A program that only asks changes nothing","statement":"Any sequence of queries (Stat, Lstat, ReadFile, ReadDir, Readlink, Chdir, Getwd, Open, OpenFile without write or create flags, and any method but Chmod and Chown of the files so opened, Write and Truncate included, which are refused) leaves the file system as it was. On a read-only mount Create, WriteFile and OpenFile for writing are among the queries: they are refused.","quantifier":"All implementations whose lookups, reads, listings and closes change nothing; all histories of queries of any length; all mount flags and configurations.","why_tests_cant":"It is a property of all histories, errors included.","anchors":["driver/driver.go","driver/file.go","file_systems/common/basicstream/basicstream.go"]}
{"id":"C127","title":"Open files do not interfere","statement":"What a program sees of an open file depends only on what it does with this file: if the implementation keeps the object's contents apart from everything else and no other open file can write to this object, then whatever the program does with the volume and its other files (short of writing to, truncating or removing what a path leads to), the answers it gets from this file, and what becomes of the object, are those it would have got had it used nothing but this file.","quantifier":"every configuration of the driver, every implementation that keeps the object's contents apart, every set of open files, every history of calls on the volume and all files","why_tests_cant":"The claim compares every interleaving of calls on any number of files with the run of one file alone.","anchors":["driver/file.go:File","driver/driver.go:OpenFile","file_systems/common/basicstream/basicstream.go:BasicStream","file_systems/common/blockcache/blockcache.go:BlockCache"]}
{"id":"C128","title":"Two open files of one object agree","statement":"If a path is opened twice, and one of the two files is used in any way and then synced successfully, both files give the same answers to reads.","quantifier":"every implementation that keeps the object's contents apart from everything else, every history of calls through one of the files, every read after Sync","why_tests_cant":"The claim ranges over all interleavings of calls on two files with separate caches.","anchors":["driver/file.go:NewFileFromObjectHandle","file_systems/common/basicstream/basicstream.go:Sync","file_systems/common/blockcache/blockcache.go:BlockCache"]}
{"id":"C129","title":"The default test cache is a faithful, guarded disk","statement":"CreateDefaultCache, given an image at least as long as documented, returns a cache and fails no assertion; every history of operations on it gives the results of a flat byte array that starts as the image; over a writable image the fixture never complains; over a read-only one it complains exactly once for each Flush that fails at a block, does so for every Flush after anything was written, and the image never changes; a successful Flush puts the contents at the beginning of the image and leaves the rest alone; the image cannot be resized.","quantifier":"every block size, number of blocks and image as documented, writable or not, every history of operations","why_tests_cant":"The fixture is what tests rely on: no test of it covers all histories, and its own callbacks would hide an out-of-bounds access it does not see.","anchors":["testing/blockcache.go:CreateDefaultCache","file_systems/common/blockcache/blockcache.go:BlockCache"]}
{"id":"C130","title":"Loading a compressed disk image","statement":"LoadDiskImage gives a stream exactly for non-empty input that is a gzip stream of a valid RLE encoding of an image of sectorSize*totalSectors bytes, and the stream is at the beginning of that image; an image compressed with CompressImage is loaded unchanged; a block cache over the stream with blocks of one sector has totalSectors blocks and behaves as the image.","quantifier":"every input, every sector size and count, every image, every history of operations on the cache","why_tests_cant":"Compressed images and histories are unboundedly many.","anchors":["testing/images.go:LoadDiskImage","utilities/compression/compression.go:DecompressImageToBytes","file_systems/common/blockcache/blockcache.go:WrapStreamWithInferredSize"]}
{"id":"C131","title":"Directory entries are made as the disk describes them","statement":"NewDirentFromRaw turns every raw entry in use or deleted into an entry with the name the bytes stand for (trailing blanks dropped, a dot before a non-empty extension, 0x05 standing for 0xE5, a deleted entry's first character restored), the right first cluster, inode number, size, least sufficient number of clusters, attributes, link count and times; an entry that begins with 0 ends the directory; nothing panics.","quantifier":"every raw entry, every cluster size, every time zone","why_tests_cant":"11 bytes of name, 5 time fields and 48 bits of numbers: the space cannot be sampled meaningfully, and the shipped code panics on every one.","anchors":["file_systems/fat/dirent.go:NewDirentFromRaw","file_systems/fat/dirent.go:TimestampFromParts"]}
{"id":"C132","title":"Readdir lists a directory","statement":"Readdir of a directory returns its entries, in order, over all the clusters of its chain, up to the end mark or, if there is none, the end of the chain.","quantifier":"every volume, every chain, every directory contents, every repair of the decoding of entries","why_tests_cant":"Directories have any number of clusters, and the failing cases (last cluster exactly full) are rare in practice.","anchors":["file_systems/fat/driverbase.go:Readdir","file_systems/fat/driverbase.go:readDirFromDirent","file_systems/fat/dirent.go:clusterToDirentSlice"]}
{"id":"C133","title":"Paths below the root directory","statement":"Stat and Readdir of a directory named by its path from the root, names separated by slashes, return its information and its entries; a path with a name that does not exist is not found.","quantifier":"every volume, every depth, every path of plain names, every repair of the decoding of entries","why_tests_cant":"Depth and names are unbounded.","anchors":["file_systems/fat/driverbase.go:resolvePathToDirent","file_systems/fat/driverbase.go:Stat","file_systems/fat/driverbase.go:Readdir"]}
{"id":"C134","title":"Mount flags mean what they are called and unknown ones are ignored","statement":"Every named mount flag grants exactly the permission it is called after; combining flags grants what either grants; CanRead, CanWrite and CanDelete answer from their own permission alone for every flag word; the mask keeps exactly the standard flags; and a program behaves the same, call for call, on two mounts that grant the same standard permissions, whatever driver-specific flags are set.","quantifier":"every 64-bit flag word, every program on a mounted volume, every implementation","why_tests_cant":"2^64 flag words, and the last part ranges over all programs.","anchors":["api.go:MountFlags","api.go:CanRead","api.go:CanWrite","api.go:CanDelete","api.go:MountFlagsMask","driver/driver.go:OpenFile"]}
{"id":"C135","title":"FAT programs change the volume only where they should, in a safe order","statement":"On a FAT volume, Readlink, Chown, Lchown, Link and Symlink always return ErrNotSupported and change nothing; Lstat is Stat; a program that only asks changes nothing; Chmod and Chtimes make at most one UpdateDirent call; Remove deletes the directory entry first and frees clusters only after that has succeeded, stopping at the first cluster that cannot be freed: so at every moment (crash point) a freed cluster is preceded by the deletion of its entry.","quantifier":"every program, every version-specific driver (with its failures), every repair of the decoding of entries, every crash point","why_tests_cant":"All histories with all possible failures of the version-specific driver.","anchors":["file_systems/fat/driverbase.go:Remove","file_systems/fat/driverbase.go:Chmod","file_systems/fat/driverbase.go:Chtimes","file_systems/fat/driverbase.go:Readlink","file_systems/fat/driverbase.go:Lstat","file_systems/fat/driverbase.go:Symlink"]}
{"id":"C136","title":"CreateObject is only called for objects that do not exist, in a directory","statement":"As api.go promises to implementations: whenever CreateObject is called, the parent is a directory at that moment and the implementation finds no object of that name in it.","quantifier":"every implementation, every path, flags and permissions, every state","why_tests_cant":"Ranges over all implementations and all states of the file system.","anchors":["api.go:CreateObject","driver/driver.go:OpenFile","driver/driver.go:Mkdir","driver/driver.go:MkdirAll","driver/driver.go:WriteFile"]}
{"id":"C137","title":"CreateHardLink is only called for a file, into a directory, and for a free name","statement":"As api.go promises to implementations: whenever CreateHardLink is called, the target does not exist, the source is no directory and the target's parent is an existing directory.","quantifier":"every implementation, every pair of paths, every state","why_tests_cant":"Ranges over all implementations and all states of the file system.","anchors":["api.go:CreateHardLink","driver/driver.go:Link"]}
{"id":"C138","title":"Slices of the block cache stay connected to it until a resize","statement":"A slice obtained from GetSlice or Data keeps showing the current contents of its blocks through any later operations, and what is written into it is at once seen by ReadAt, Data and every other slice, until a Resize succeeds; from then on it is a private copy (shared with the other slices of that time): writes into it are never seen by the cache and it never changes by itself. When Flush returns nil, the storage holds the cache's contents except possibly for blocks written through a slice and not marked with MarkBlockRangeDirty since.","quantifier":"every storage obeying the callback contract and failing at any time, every session of cache operations interleaved with taking, reading, writing and marking any number of slices","why_tests_cant":"Aliasing: ranges over all interleavings of operations, resizes, faults and any number of overlapping slices.","anchors":["file_systems/common/blockcache/blockcache.go:GetSlice","file_systems/common/blockcache/blockcache.go:Data","file_systems/common/blockcache/blockcache.go:MarkBlockRangeDirty","file_systems/common/blockcache/blockcache.go:Resize","file_systems/common/blockcache/blockcache.go:Flush"]}
{"id":"C139","title":"Copying one open stream to another","statement":"src.WriteTo(dst), which is what io.Copy(dst, src) does, and dst.ReadFrom(src) return nil only if the destination's file then holds, from the destination's position on, exactly what was left to read of the source, and they return its length; the source's file is unchanged.","quantifier":"every pair of open streams of one block size, however they were reached and used before, over any storage whose callbacks do not fail, and every amount left in the source","why_tests_cant":"Ranges over all sizes of source and destination, positions and histories of both; the repository's tests copy to and from byte buffers only.","anchors":["file_systems/common/basicstream/basicstream.go:WriteTo","file_systems/common/basicstream/basicstream.go:ReadFrom","file_systems/common/basicstream/basicstream.go:implWriteAt","file_systems/common/basicstream/basicstream.go:ReadAt"]}
{"id":"C140","title":"A Flush that stops in the middle","statement":"If a mounted FAT8 volume holds three equal copies of a FAT and Flush stops (crash, or a failing write) after storing any of the sectors of its data, then GetFAT, and Mount after Unmount, report an error or find exactly the old FAT or exactly the new one, never a mixture.","quantifier":"every mounted driver reached by any history, every old FAT, every set of sectors (or every prefix of bytes) that was stored before the write stopped, every kind of volume","why_tests_cant":"Ranges over all crash points and, for disks that reorder sectors, over all subsets of the sectors written.","anchors":["file_systems/fat8/driver.go:Flush","file_systems/fat8/iobase.go:writeFAT","file_systems/fat8/iobase.go:GetFAT","file_systems/fat8/iobase.go:WriteDiskBlocks","file_systems/fat8/driver.go:Mount"]}
{"id":"C141","title":"A FormatImage that stops in the middle","statement":"If FormatImage (on an image whose size can be changed) stops after storing any part of what it writes, the image has the size of the volume, the first t bytes of the directory track are those of an empty volume for some t (all of them if it succeeded), and every other byte is the old one, or null where there was none. If the image already held a volume of that size with three equal copies of its FAT, GetFAT and Mount then report an error or find the old FAT or that of an empty volume.","quantifier":"every image contents and size, every supported volume size, every driver that is not mounted, every point at which the writes stop","why_tests_cant":"Ranges over all crash points and all previous contents.","anchors":["file_systems/fat8/formattingdriver.go:FormatImage","file_systems/fat8/iobase.go:WriteDiskBlocks","file_systems/fat8/iobase.go:GetFAT","file_systems/fat8/driver.go:Mount"]}
{"id":"C142","title":"Resizing a wrapped stream","statement":"Resize on a cache made by WrapStream is refused without any effect, with ErrNotPermitted if the caller forbade resizing and with ErrNotSupported if it was allowed but the stream has no Truncate. Otherwise it calls Truncate once with the new size in bytes: if that fails the error is returned and the cache and the bytes are as before, if not the cache has the new number of blocks and the stream is cut off or extended with nulls. Where resizing is forbidden no history of operations changes the stream's length or the bytes after the cached blocks.","quantifier":"every stream that obeys the io contracts (short reads and failures included for the last part), every block size and number of blocks, every history of operations, every new size below 2^63 bytes","why_tests_cant":"Ranges over all streams, histories and failures; the repository's tests use memory streams that never fail.","anchors":["file_systems/common/blockcache/blockcache.go:WrapStream","file_systems/common/blockcache/blockcache.go:Resize","file_systems/common/blockcache/blockcache.go:seekToBlock"]}
{"id":"C143","title":"What the storage holds after a crash at any moment of a history","statement":"At every moment of every history, whichever callbacks failed, each block of the storage holds what the cached object had in that block when the last Flush that reached the block was called (or what it held to begin with), except a block in which a Flush failed and blocks added by Resize, until a Flush reaches them. So after a crash between any two block writes, a new cache on the storage reads exactly those blocks; and if the last Flush returned nil and neither Flush nor Resize was called since, it reads the object as it was at that Flush.","quantifier":"every storage obeying the callback contract, every failure pattern, every history of operations, every number of block writes before the crash","why_tests_cant":"Ranges over all histories, failures and crash points.","anchors":["file_systems/common/blockcache/blockcache.go:Flush","file_systems/common/blockcache/blockcache.go:Resize","file_systems/common/blockcache/blockcache.go:WriteAt","file_systems/common/blockcache/blockcache.go:ReadAt"]}
{"id":"C144","title":"What was stored before a stream was opened survives it","statement":"Whatever is done with an open stream (reads, writes, Truncate, Sync, Close, copies, in any order, with or without O_SYNC), whichever callbacks fail, and wherever a crash interrupts it: the bytes that the storage held when the stream was opened on a new cache are still there, up to the smallest size (in whole blocks) that the object has had since. A stream can only change storage that it gave up or added itself by changing the size.","quantifier":"every storage obeying the callback contract, every failure pattern, every history of calls with any buffers, offsets, readers and writers, every number of block writes before a crash","why_tests_cant":"Ranges over all histories, failures and crash points.","anchors":["file_systems/common/basicstream/basicstream.go:BasicStream.implWriteAt","file_systems/common/basicstream/basicstream.go:BasicStream.Truncate","file_systems/common/basicstream/basicstream.go:BasicStream.Sync","file_systems/common/basicstream/basicstream.go:New","file_systems/common/blockcache/blockcache.go:Flush"]}
{"id":"C145","title":"Copying a stream to itself","statement":"f.WriteTo(f), io.Copy(f, f) and f.ReadFrom(f) return after at most one Read for each whole block left to read, plus one; they do not panic, they leave every byte before the stream's position as it was, and the file does not become shorter.","quantifier":"every storage obeying the callback contract, every open stream with any history, position, size and flags","why_tests_cant":"That a loop which reads and writes the same file ends, for every file, is not something a test can observe; it does not end for most files.","anchors":["file_systems/common/basicstream/basicstream.go:BasicStream.WriteTo","file_systems/common/basicstream/basicstream.go:BasicStream.ReadFrom","file_systems/common/basicstream/basicstream.go:BasicStream.Read","file_systems/common/basicstream/basicstream.go:BasicStream.Write"]}
{"id":"C146","title":"A stream over storage of fixed size","statement":"Over storage whose blocks can all be read and written but whose size cannot be changed - a cache from WrapSlice, from WrapStream with allowResize false, or created with a nil resize callback - a write that lies inside the file writes everything and returns nil, and after a Sync that returned nil the storage holds what was written.","quantifier":"every such storage, block size and number of blocks, every stream opened on a new cache over it, every history of calls, every buffer and offset","why_tests_cant":"That nothing ever reaches the storage, whatever is called with whatever arguments, and which writes are refused, ranges over all histories, sizes and offsets; the library's own tests use storage that can grow.","anchors":["file_systems/common/basicstream/basicstream.go:BasicStream.WriteAt","file_systems/common/basicstream/basicstream.go:BasicStream.Write","file_systems/common/basicstream/basicstream.go:BasicStream.Sync","file_systems/common/basicstream/basicstream.go:BasicStream.Truncate","file_systems/common/basicstream/basicstream.go:New","file_systems/common/blockcache/blockcache.go:WrapSlice","file_systems/common/blockcache/blockcache.go:WrapStream"]}
{"id":"C147","title":"FAT8 SameFile","statement":"For names that can be stored on a FAT8 disk, SameFile is true exactly if the two names have the same on-disk form, i.e. name the same directory entry.","quantifier":"every pair of ASCII names accepted by FilenameToBytes","why_tests_cant":"The equivalence ranges over all pairs of names.","anchors":["file_systems/fat8/readingdriver.go:FAT8Driver.SameFile","file_systems/fat8/common.go:FilenameToBytes","file_systems/fat8/readingdriver.go:FAT8Driver.Stat"]}
{"id":"C148","title":"An open stream is a simple machine","statement":"With storage callbacks that do not fail, an open stream is fully described by the bytes of its object, the file's size, the position and the access mode: every history of Read, ReadAt, Seek, Sync, Truncate, Write, WriteAt, WriteTo and ReadFrom gives exactly the counts, bytes, errors, Size and Tell of a small machine over these, whatever was done with the cache before the stream was opened; New gives the machine for the cached bytes; nothing panics. (The machine is what the code does: e.g. a Read that meets the end of the file does not move the position, a write that ends within the object does not change the size, some writes are refused.)","quantifier":"every lawful storage whose callbacks do not fail, every block size and number of blocks, every earlier history, every list of calls with non-negative offsets and sizes below 2^63","why_tests_cant":"The equality ranges over all histories, all arguments and all storage; a test compares one history with one expectation.","anchors":["file_systems/common/basicstream/basicstream.go:New","file_systems/common/basicstream/basicstream.go:BasicStream.Read","file_systems/common/basicstream/basicstream.go:BasicStream.ReadAt","file_systems/common/basicstream/basicstream.go:BasicStream.Seek","file_systems/common/basicstream/basicstream.go:BasicStream.Sync","file_systems/common/basicstream/basicstream.go:BasicStream.Truncate","file_systems/common/basicstream/basicstream.go:BasicStream.Write","file_systems/common/basicstream/basicstream.go:BasicStream.WriteAt","file_systems/common/basicstream/basicstream.go:BasicStream.WriteTo","file_systems/common/basicstream/basicstream.go:BasicStream.ReadFrom"]}
{"id":"C149","title":"What an open stream leaves in the storage","statement":"With storage callbacks that do not fail, the bytes in the storage below an open stream are, after every history of calls, exactly those that a byte-by-byte account next to the reference machine of C148 gives: Sync (and O_SYNC) stores what is waiting, only what Truncate or a write adds to the object ever waits, what overwrites existing blocks does not; after a Sync the whole object is accounted for.","quantifier":"every lawful storage whose callbacks do not fail, every block size and number of blocks, every stream opened on a new cache, every list of calls with non-negative offsets and sizes below 2^63 (also streams and caches already in use)","why_tests_cant":"What is stored depends on the whole history of growth, cuts, writes and Syncs; the equality ranges over all of them.","anchors":["file_systems/common/basicstream/basicstream.go:BasicStream.Sync","file_systems/common/basicstream/basicstream.go:BasicStream.Truncate","file_systems/common/basicstream/basicstream.go:BasicStream.Write","file_systems/common/basicstream/basicstream.go:BasicStream.WriteAt","file_systems/common/basicstream/basicstream.go:BasicStream.ReadFrom","file_systems/common/blockcache/blockcache.go:BlockCache.Flush","file_systems/common/blockcache/blockcache.go:BlockCache.Resize"]}
{"id":"C150","title":"A compressed image cut short is never taken for a complete one","statement":"If the compressed form of an image is cut short anywhere, or reading it fails anywhere, DecompressImage returns an error, and what it has written is a beginning of the image; DecompressImageToBytes returns no data; unzipimage does not exit with 0. What CompressImage writes to an output that fails is a beginning of the compressed form, so zipimage on a full disk leaves such a file, and exits with 0 exactly if all of it fitted.","quantifier":"every image, every beginning of its compressed form and every failing read of it, every output, every state of the computer, every gzip library that notices streams that end too early (as compress/gzip documents)","why_tests_cant":"The cut may be anywhere: in the header, between a byte and its repetition, before its count, in the checksum; the RLE8 decoder alone does not notice most cuts.","anchors":["utilities/compression/compression.go:CompressImage","utilities/compression/compression.go:DecompressImage","utilities/compression/compression.go:DecompressImageToBytes","cmd/zipimage/main.go:main","cmd/unzipimage/main.go:main"]}
{"id":"C151","title":"What a failed CompressImage has written is not accepted","statement":"If CompressImage (zipimage) returns an error, what it has written is not a complete compressed image: DecompressImage (unzipimage) of it returns an error.","quantifier":"every image, every failing read or write, every gzip library that notices streams that end too early","why_tests_cant":"The failure may be at any byte of the input or of the output.","anchors":["utilities/compression/compression.go:CompressImage","utilities/compression/compression.go:DecompressImage","utilities/compression/compression.go:DecompressImageToBytes","cmd/zipimage/main.go:main","cmd/unzipimage/main.go:main"]}
{"id":"C152","title":"The standard library reads streams correctly","statement":"io.ReadAll on an open stream always returns, with the bytes from the position to the end of the file, complete and in order, and nil; io.ReadFull fills the buffer with the next bytes, or returns what there is with io.ErrUnexpectedEOF (io.EOF if there is nothing); io.ReadAtLeast and io.CopyN(dst, stream, n) likewise return exactly the next bytes of the file, and nil exactly if there are enough. The only other thing that can happen is that the storage (or dst) failed; then what was returned is a beginning of these bytes. The file does not change. (Where the position is afterwards is stated too: Read does not advance when it returns io.EOF, C24, so the bytes at the end are returned again by the next call.)","quantifier":"every stream in any reachable state, every way io.ReadAll lets its buffer grow, every buffer, every n, every writer, every behaviour of the storage","why_tests_cant":"How many bytes each Read delivers and which one comes with io.EOF depends on the position, the size of the file and the growth of the buffer; a mistake shows only for particular combinations.","anchors":["file_systems/common/basicstream/basicstream.go:Read","file_systems/common/basicstream/basicstream.go:ReadAt"]}
{"id":"C153","title":"An open file is a simple machine","statement":"OpenFile on a regular file that exists, or that it creates, gives a file that is fully described by the bytes of the object, the size that Stat reports, a position and the access mode: every history of Read, ReadAt, Write, WriteAt, Seek, Truncate and Sync on it gets exactly the counts, bytes and errors of a small machine over these (the machine of C148), and its size and position afterwards are the machine's. As long as no method asks for another size of the object (a file opened for reading never does), this holds on every volume whose blocks can be read, and nothing in the volume changes, whatever was written to the file: not even Sync stores it.","quantifier":"every file system implementation that meets the stated rules, every state, working directory, path, access mode and earlier set of open files, every list of methods with non-negative offsets and numbers that fit in memory","why_tests_cant":"a test opens a few files of one implementation and makes a few calls; the claim is about every history of calls and every implementation, block size and contents","anchors":["driver/driver.go: OpenFile","driver/file.go: NewFileFromObjectHandle","file_systems/common/basicstream/basicstream.go: BasicStream","file_systems/common/blockcache/blockcache.go: BlockCache"]}
{"id":"C154","title":"What one Sync or Close at the end of a stream's life stores","statement":"With storage callbacks that do not fail: a stream opened without O_SYNC, on which anything but Sync is called, stores with one Sync (or Close) at the end all bytes of the object except those in blocks that the object had all the time, which stay as they were; in particular, if the stream was opened with O_TRUNC, the storage then holds the whole file that the stream shows.","quantifier":"every lawful storage whose callbacks do not fail, every block size and number of blocks, every stream opened on a new cache (with O_TRUNC: on any cache), every list of calls without Sync and with arguments that fit","why_tests_cant":"it ranges over all histories of Read, Write, Seek, Truncate and copying calls; a test writes one file one way, and a block that is lost in one order of calls is stored in another","anchors":["file_systems/common/basicstream/basicstream.go: New, Write, WriteAt, Truncate, Sync, Close","file_systems/common/blockcache/blockcache.go: Resize, FlushBlockRange"]}
{"id":"C155","title":"What a program leaves in the volume when it closes a file","statement":"When a program opens or creates a regular file of a volume whose callbacks do not fail, uses it in any way and closes it, and Close returns nil, the volume holds the file as the program left it, and a later ReadFile returns it.","quantifier":"every such implementation, path, open flags, contents and block size, every list of methods called on the file","why_tests_cant":"it ranges over all programs and volumes; the data that are lost depend on the order of writes, Truncates and Syncs","anchors":["driver/driver.go: OpenFile, ReadFile","driver/file.go: File, NewFileFromObjectHandle, Close","file_systems/common/basicstream/basicstream.go"]}
{"id":"C156","title":"A FAT8 driver is a simple machine","statement":"Every sequence of calls to a new FAT8 driver (FormatImage, Mount, Unmount, Flush, GetFAT, ReadDiskBlocks, WriteDiskBlocks, reading and writing clusters and file clusters, IsValidCluster, FSStat, Stat) gets, on an image file that does not fail, exactly the answers, with the same errors, of a small machine whose state is the bytes of the image, the size of the formatted volume, the layout the driver goes by, whether it is mounted and the FAT it read at the last Mount; afterwards the file holds the machine's bytes; no call panics. If the file may fail, each call gets the machine's answer or an error of the file, and in the latter case leaves a state of the machine that differs from the one it would have left only in the bytes that were being written (a call that only reads leaves everything as it was).","quantifier":"every initial contents of the image, every sequence of calls with arguments that are Go values (block numbers below 2^56), every pattern of failures of the file (other than of Truncate)","why_tests_cant":"ranges over all images, all histories of calls and all ways the file can fail","anchors":["file_systems/fat8/driver.go:Mount","file_systems/fat8/driver.go:Flush","file_systems/fat8/formattingdriver.go:FormatImage","file_systems/fat8/iobase.go:ReadDiskBlocks","file_systems/fat8/iobase.go:WriteAbsoluteCluster","file_systems/fat8/iobase.go:ReadFileCluster"]}
{"id":"C157","title":"A FAT8 call that failed because of the image file can be repeated","statement":"A call to a FAT8 driver that failed because the image file failed, in a read, in the middle of a write, in FormatImage or in Mount, and that is repeated until it does not fail because of the file, has the answer it would have had at once if the file had not failed, leaves the same bytes in the file, and leaves the driver in a state in which all later calls have the same answers and effects.","quantifier":"every initial contents of the image, every history of calls before, every call and number of attempts, every way the file can fail (other than Truncate), every sequence of calls afterwards","why_tests_cant":"ranges over all failure points of the file and all histories before and after","anchors":["file_systems/fat8/driver.go:Mount","file_systems/fat8/driver.go:Flush","file_systems/fat8/formattingdriver.go:FormatImage","file_systems/fat8/iobase.go:WriteDiskBlocks"]}
{"id":"C158","title":"A call on an open stream that failed because of the storage can be repeated","statement":"On a stream whose storage callbacks may fail at any time, a call (Read, ReadAt, Seek, Sync, Truncate, Write, WriteAt) that failed because of a callback and is repeated until it does not, has the answer it would have had at once, and leaves the same bytes, size and position as if the storage had never failed; WriteTo, called again after such failures, gives its writers each byte from the position to the end of the file once and in order.","quantifier":"every storage that behaves when it does not fail, every pattern of failures, every stream with any history, every program of calls in which every failed call is repeated any number of times","why_tests_cant":"ranges over all failure patterns of the storage, all histories and programs","anchors":["file_systems/common/basicstream/basicstream.go:Write","file_systems/common/basicstream/basicstream.go:implWriteAt","file_systems/common/basicstream/basicstream.go:Truncate","file_systems/common/basicstream/basicstream.go:WriteTo","file_systems/common/blockcache/blockcache.go:GetSlice"]}
{"id":"C159","title":"A program that repeats every failed cache call gets through","statement":"On storage whose callbacks fail finitely often, whenever they do so, a program that repeats each failed call of the cache until it succeeds ends: it makes at most as many failed calls as the storage has failures, its calls answer exactly like a flat array of bytes, nothing else can happen, and if its last call is Flush the storage holds exactly that array.","quantifier":"every storage obeying the callback contract, every finite number of failures at every position of the run, every geometry, every program of calls inside the object (with Resize only if the resize callback too fails finitely often)","why_tests_cant":"ranges over all failure patterns, all storages and all programs","anchors":["file_systems/common/blockcache/blockcache.go:loadBlockRange","file_systems/common/blockcache/blockcache.go:flushBlockRange","file_systems/common/blockcache/blockcache.go:Flush","file_systems/common/blockcache/blockcache.go:WriteAt","file_systems/common/blockcache/blockcache.go:ReadAt","file_systems/common/blockcache/blockcache.go:Resize"]}
{"id":"C160","title":"On an open stream no more calls fail because of the storage than the storage fails","statement":"Whatever calls are made on an open stream and in whatever order (WriteTo and ReadFrom included), each call that fails because of the storage has used up at least one of the storage's failures; so if the storage fails finitely often, only that many calls can fail because of it, and a program of Read, ReadAt, Seek and Sync calls that repeats those that did comes to its end with the answers it would have had on storage that never fails; and Close, repeated until it returns nil, returns nil within that many failures and leaves no modified block unstored.","quantifier":"every storage whose callbacks (resize included, for the count) fail finitely often, at any time, every stream, every program of calls","why_tests_cant":"ranges over all failure patterns, storages and programs","anchors":["file_systems/common/basicstream/basicstream.go:Read","file_systems/common/basicstream/basicstream.go:implWriteAt","file_systems/common/basicstream/basicstream.go:Truncate","file_systems/common/basicstream/basicstream.go:Sync","file_systems/common/basicstream/basicstream.go:WriteTo","file_systems/common/basicstream/basicstream.go:ReadFrom"]}
