# DESIGN

## 1. What this is

A Lean 4 model of dargueta/disko, written function by function from the Go source in /repo, and
theorems about it.  Each directory `lean/Verif/<Part>` holds a `Model.lean` (the code; every definition
cites file and lines), specification files (`Spec.lean`, `PathSpec.lean`, or a `Spec` section at the top of
a `Props` file) that say what is wanted without using the model's helpers, lemma files, and
`Props*.lean` with the theorems `Cnn_...` listed in MANIFEST.json.  Beside each theorem an `example`
shows a concrete case that meets its hypotheses.

Naming: `Cnn_name` is proved as stated in properties.jsonl; `Cnn_..._partial` proves part of it, and
its comment says what is missing; where the property is *false of the code*, `Cnn_statement` is the full
statement as a definition and `Cnn_refuted` (or `Cnn_..._refuted`) proves its negation with a concrete
program state, so that a repair of the code would break that theorem.

disko is unfinished software: many properties its interface promises do not hold.  The refutations are
results, not gaps; the partial theorems then say what exactly the code does instead.

## 2. Trusted base

* The Lean 4.33.0 kernel.  No axioms of our own, no compiled evaluation.  `#print axioms` on every
  theorem in MANIFEST.json gives a subset of {propext, Classical.choice, Quot.sound} (last count: 3
  theorems use none, 19 only propext, 86 propext and Quot.sound, the others all three).
* That the model says what the Go code does.  This is a reading of the source, helped by: citations
  on every definition; explicit machine arithmetic; explicit panics and non-termination; examples computed
  by the kernel; seeded bugs (section 4).
* The behaviour of the Go language and standard library stated below.

### Go semantics as modelled (lean/Verif/Base)

* `uint`, `uint64`, LogicalBlock: natural numbers below 2^64, every sum, difference and product that can
  overflow is reduced (`u64`, `u64sub`); `int`, `int64`: integers wrapped by `i64`.  64-bit platforms.
  Flag words and FileMode: bit vectors.
* A call returns, panics, or has not returned within a step budget: `Outcome`.  "Does not terminate"
  is "no budget suffices".  Out-of-range slicing, nil dereference, failing type assertions and huge
  `make` are panics.  Running out of memory below the limits of `make` is not modelled.
* Slices that alias a cache's memory are windows into it (BlockCache).  Elsewhere byte slices are values.
* Single-threaded: the code starts no goroutines and has no locks; concurrent use is outside the model.
* Strings are byte lists (Disks: character lists).

### Library assumptions

* io.Reader, io.Writer contracts (`Src`, `Sink.law`); bufio delivers the same bytes; compress/gzip is some
  lossless codec (structure `Gzip`); go-bitmap as documented (room rounded up to 8 bits, panics beyond);
  os.File by `LawfulFile`; errors.Is and multierror by their documented search; encoding/csv, csvutil as far as
  the geometry table uses them; binary.Read panics on unexported struct fields and reads little-endian
  fields in order; time.Date panics on a nil location; path.Clean, Join, Split by their source (Base/Path).

## 3. Modelled and not modelled, file by file

| file in /repo | model | not modelled |
|---|---|---|
| utilities/compression/rle_grouper.go, rle8.go, compression.go | Compression: all functions | buffering; gzip itself |
| file_systems/common/blockcache/blockcache.go | BlockCache: all methods, WrapStream, WrapStreamWithInferredSize, WrapSlice (Wrap.lean: over any io.ReadWriteSeeker; the bytesextra stream of WrapSlice as a model of that library) | text of error messages |
| file_systems/common/basicstream/basicstream.go | Stream: all methods | text of error messages |
| testing/blockcache.go, testing/images.go | Testing/Model.lean | the contents of random images; callbacks slicing an image shorter than documented (a panic) |
| file_systems/common/types.go | LogicalBlock as natural number; Truncator as a Boolean; init constants where used | unused types |
| flags.go, errors.go, api.go (FileStat, MountFlags predicates) | Flags: all functions | — |
| api.go (interfaces) | parameters of the Driver model | interfaces nothing in /repo calls (boot code, volume label) |
| driver/driver.go, file.go, dirent.go, fsobject.go | Driver: all functions, in three configurations (see Model.lean); histories of calls (History.lean) | error messages |
| driver/nopobject.go | Driver/Nop (every method) | C116. Chtimes returns the plain error type, so it does not satisfy SupportsChtimesHandle; that is a matter of types and not modelled |
| file_systems/fat8/*.go | Fat8: all functions (names of any bytes in Names.lean; paths given to Stat and names given to SameFile only as ASCII) | messages |
| file_systems/fat/common.go, dirent.go, driverbase.go | Fat: all functions, over an arbitrary version-specific driver | messages; the five methods that only return ErrNotSupported; fat12/16/32.go contain no code to model |
| file_systems/unixv6/dirents.go | UnixV6: all functions | — |
| disks/disks.go, disk-geometries.csv | Disks: all functions, the whole table | — |
| file_systems/common/init.sql | Sql: tables, constraints, cascades and both triggers (no Go code in /repo runs the script). Trusted: the SQLite behaviour listed at the head of Verif/Sql/Model.lean | changes of a primary key, INSERT OR REPLACE, NULL link counts |
| cmd/zipimage, cmd/unzipimage | Cmd | closing the files; messages |
| cmd/main.go | — | runs the cli library with an action that does nothing |

The driver as shipped drops every object handle (fsobject.go:16-22, marked FIXME in the source), so
nearly every operation panics.  To say anything about the rest of driver.go the Driver model has a
configuration: `shipped` is the code as it is; in `keeping` wrapObjectHandle stores the handle (the line
that is commented out); in `passing` the wrapper also passes optional interfaces on.  Theorems name the
configuration they are about; unless they say `shipped` or quantify over the configuration, they are about a repaired
wrapper, and are marked partial.

## 4. Seeded bugs

`tools/mutate.py` edits a scratch copy of the model the way a bug would change the program, rebuilds and
records in `seeded/LOG.jsonl` which theorems failed.  Entries with a non-empty "tightened" led to stronger
theorems.  Surviving edits carry a note saying why the claim is still true of the edited program.
