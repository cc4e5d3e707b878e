{
 "C01": "Induction over the maximal runs; the key fact is that the code of a run cannot be confused with the next byte.",
 "C02": "`RunsOf` (flatten, non-empty, neighbours differ) is unique; induction on the remaining input.",
 "C03": "Generic writer that records what it accepted; invariant of the writer loops.",
 "C04": "Independent grammar of encodings; the decoder loop is refined to it.",
 "C05": "Length of the code of a run; arithmetic.",
 "C06": "Reference reader written from doc.go; induction on runs.",
 "C07": "Witness; exact class of inputs on which it holds.",
 "C08": "Composition of C01 with any lossless codec.",
 "C09": "BlockCache model over an arbitrary backend; refinement of every history of calls to a flat byte array.",
 "C10": "BlockCache model over an arbitrary backend; refinement of every history of calls to a flat byte array.",
 "C11": "BlockCache model over an arbitrary backend; refinement of every history of calls to a flat byte array.",
 "C12": "BlockCache model over an arbitrary backend; refinement of every history of calls to a flat byte array.",
 "C13": "BlockCache model over a backend that logs its calls; induction over histories.",
 "C14": "BlockCache model over a backend that logs its calls; induction over histories.",
 "C15": "BlockCache model over a backend that logs its calls; induction over histories.",
 "C16": "BlockCache model over an arbitrary backend; refinement of every history of calls to a flat byte array.",
 "C17": "BlockCache model over an arbitrary backend; refinement of every history of calls to a flat byte array. Witness for the false part, exact side condition for the rest.",
 "C18": "BlockCache model over an arbitrary backend; refinement of every history of calls to a flat byte array. Witness for the false part, exact side condition for the rest.",
 "C19": "BlockCache model over an arbitrary backend; refinement of every history of calls to a flat byte array. Witness for the false part, exact side condition for the rest.",
 "C20": "BlockCache model over an arbitrary backend; refinement of every history of calls to a flat byte array. Witness for the false part, exact side condition for the rest.",
 "C21": "BlockCache model over an arbitrary backend; refinement of every history of calls to a flat byte array. Witness for the false part, exact side condition for the rest.",
 "C22": "Crash = a flush callback that does not succeed and may leave garbage in its block; induction over the flush loop.",
 "C23": "Stream model on top of the block cache; invariant of every reachable stream, contents seen as one byte list.",
 "C24": "Stream model on top of the block cache; invariant of every reachable stream, contents seen as one byte list.",
 "C25": "Stream model on top of the block cache; invariant of every reachable stream, contents seen as one byte list.",
 "C26": "Stream model on top of the block cache; invariant of every reachable stream, contents seen as one byte list.",
 "C27": "Stream model on top of the block cache; invariant of every reachable stream, contents seen as one byte list.",
 "C28": "Stream model on top of the block cache; invariant of every reachable stream, contents seen as one byte list.",
 "C29": "Stream model on top of the block cache; invariant of every reachable stream, contents seen as one byte list.",
 "C30": "Stream model on top of the block cache; invariant of every reachable stream, contents seen as one byte list.",
 "C31": "Stream model on top of the block cache; invariant of every reachable stream, contents seen as one byte list.",
 "C32": "Stream model on top of the block cache; invariant of every reachable stream, contents seen as one byte list.",
 "C33": "Stream model on top of the block cache; invariant of every reachable stream, contents seen as one byte list.",
 "C34": "Stream model on top of the block cache; invariant of every reachable stream, contents seen as one byte list.",
 "C67": "Stream model on top of the block cache; invariant of every reachable stream, contents seen as one byte list.",
 "C68": "Stream model on top of the block cache; invariant of every reachable stream, contents seen as one byte list.",
 "C35": "Bit vectors; facts bit by bit for all values.",
 "C36": "Bit vectors; facts bit by bit for all values.",
 "C37": "Errors as an inductive type; errors.Is as search; induction on the chain of wrappings.",
 "C38": "Errors as an inductive type; errors.Is as search; induction on the chain of wrappings.",
 "C39": "Pure function of the block count, case analysis.",
 "C40": "Fat8 model over an arbitrary os.File; effects stated byte by byte on the image, histories by induction.",
 "C41": "Fat8 model over an arbitrary os.File; effects stated byte by byte on the image, histories by induction.",
 "C42": "Fat8 model over an arbitrary os.File; effects stated byte by byte on the image, histories by induction.",
 "C43": "Fat8 model over an arbitrary os.File; effects stated byte by byte on the image, histories by induction.",
 "C44": "Fat8 model over an arbitrary os.File; effects stated byte by byte on the image, histories by induction.",
 "C45": "Fat8 model over an arbitrary os.File; effects stated byte by byte on the image, histories by induction.",
 "C46": "Fat8 model over an arbitrary os.File; effects stated byte by byte on the image, histories by induction.",
 "C69": "Fat8 model over an arbitrary os.File; effects stated byte by byte on the image, histories by induction.",
 "C70": "Fat8 model over an arbitrary os.File; effects stated byte by byte on the image, histories by induction.",
 "C71": "Fat8 model over an arbitrary os.File; effects stated byte by byte on the image, histories by induction.",
 "C72": "Fat8 model over an arbitrary os.File; effects stated byte by byte on the image, histories by induction.",
 "C73": "Fat8 model over an arbitrary os.File; effects stated byte by byte on the image, histories by induction.",
 "C47": "Fat8 model over an arbitrary os.File; name codec on byte lists, against a specification of the 6.3 format.",
 "C48": "Fat8 model over an arbitrary os.File; name codec on byte lists, against a specification of the 6.3 format.",
 "C49": "Fat model over an arbitrary version-specific driver; arithmetic with the Go integer widths; chains as relations, loops under a budget.",
 "C50": "Fat model over an arbitrary version-specific driver; arithmetic with the Go integer widths; chains as relations, loops under a budget.",
 "C51": "Fat model over an arbitrary version-specific driver; arithmetic with the Go integer widths; chains as relations, loops under a budget.",
 "C52": "Fat model over an arbitrary version-specific driver; arithmetic with the Go integer widths; chains as relations, loops under a budget.",
 "C53": "Fat model over an arbitrary version-specific driver; arithmetic with the Go integer widths; chains as relations, loops under a budget.",
 "C54": "Fat model over an arbitrary version-specific driver; arithmetic with the Go integer widths; chains as relations, loops under a budget.",
 "C55": "Fat model over an arbitrary version-specific driver; arithmetic with the Go integer widths; chains as relations, loops under a budget.",
 "C56": "Fat model over an arbitrary version-specific driver; arithmetic with the Go integer widths; chains as relations, loops under a budget.",
 "C57": "Fat model over an arbitrary version-specific driver; arithmetic with the Go integer widths; chains as relations, loops under a budget.",
 "C75": "Fat model over an arbitrary version-specific driver; arithmetic with the Go integer widths; chains as relations, loops under a budget.",
 "C76": "Fat model over an arbitrary version-specific driver; arithmetic with the Go integer widths; chains as relations, loops under a budget.",
 "C77": "Fat model over an arbitrary version-specific driver; arithmetic with the Go integer widths; chains as relations, loops under a budget.",
 "C78": "Fat model over an arbitrary version-specific driver; arithmetic with the Go integer widths; chains as relations, loops under a budget.",
 "C79": "Fat model over an arbitrary version-specific driver; arithmetic with the Go integer widths; chains as relations, loops under a budget.",
 "C80": "Fat model over an arbitrary version-specific driver; arithmetic with the Go integer widths; chains as relations, loops under a budget.",
 "C58": "UnixV6 model; bit fields of the inode.",
 "C59": "UnixV6 model; bit fields of the inode.",
 "C74": "UnixV6 model; bit fields of the inode.",
 "C60": "Disks model: arithmetic, and the parsed table.",
 "C61": "Driver model over an arbitrary implementation; paths are byte strings; the meaning of a path is given byte by byte in PathSpec, path.Clean and Join are proved to agree with it.",
 "C62": "Driver model over an arbitrary implementation; `At` says which object is at a location; resolution with a budget.",
 "C63": "Driver model over an arbitrary implementation; `LinksTo`, `Follows` describe the link graph in the root; the loop is followed along it; non-termination for every budget.",
 "C64": "Driver model over an arbitrary implementation; generic induction over path resolution (`Keeps`) for what calls do to the state and which errors they return.",
 "C65": "Driver model over an arbitrary implementation; `Calls` is any sequence of ReadDir calls with any changes in between; invariant of the queue.",
 "C66": "Driver model over an arbitrary implementation; the single call to Resize is exhibited; arithmetic of ceilings.",
 "C81": "Driver model over an arbitrary implementation; `Means` says which location a path spells, `Found` which object it stands for; composition with the stream contents theorem.",
 "C82": "A relational invariant (state after = state before) carried through every function, by induction on the step budget.",
 "C83": "Inductive set of working directories a driver can have; induction on the budget for canonical paths; a second induction on the budget with states (triples) for where the objects found are.",
 "C84": "Driver model; link graph as relation; the loop followed along it.",
 "C85": "Driver model; contents theorem for the text.",
 "C86": "Volume: laws an implementation of a tree of objects obeys (kinds at locations). Exactly one Unlink, after ListDir shows nothing but dots.",
 "C87": "Induction on the depth of the tree and on the list of entries, over any Volume.",
 "C88": "Driver model with arbitrary implementation; contents theorem for the link text.",
 "C89": "Any implementation for the call; Volume laws for the effect; DirectoryMode states the mode bit by bit.",
 "C90": "As C89; non-termination by induction on fuel.",
 "C91": "Resolution theorems Found/Missing for any implementation, newFile_open for opening, Volume laws for the effect.",
 "C92": "Same model and theorems as C91.",
 "C93": "newFile_trunc composes the block cache and the stream over the object; gives_found resolves the path.",
 "C94": "Any implementation; Found/Missing for both paths.",
 "C95": "Equality of the two calls for all flags, states and fuel; a concrete link for the refutation.",
 "C96": "Induction over the names the implementation lists; Volume laws for completeness.",
 "C97": "Any implementation; Found/Missing for the path; equality of the resulting state with one call of the method.",
 "C98": "Equality of the calls under any two mount flags, by induction on fuel for path resolution.",
 "C99": "SameFile is a function of two FileStat values; the specification is the implementation's SameAs over all volumes.",
 "C100": "path.Base is modelled and shown to give the last name of every canonical path; the rest by the fields.",
 "C101": "Composition of the driver with the models of the stream and the block cache, for any implementation: resizing to 0, resizing to the number of blocks, writing the blocks in order; induction over the blocks for the flush.",
 "C102": "An implementation that records its calls; every function of the driver is shown to add only calls of the given kinds, by induction on the depth of the path resolution and over the frames of the stream and the block cache (Stream/Frame.lean).",
 "C103": "A recorder of calls and states (Driver/Recording.lean); the frame of the cache says every fetch passed the bounds check, which is turned into a statement on Stat by arithmetic modulo 2^64; the reads of an open file keep the invariant that the shape of the cache fits the object.",
 "C104": "Refutation by evaluating the model in the kernel on an implementation shown to satisfy the hypotheses. The partial theorems by induction over the calls with the invariant that the cache's block size is the object's, over the length frame of the cache and stream (Stream/FrameLen.lean).",
 "C105": "Remove: a recorder of calls and the states they are made in. RemoveAll: an implementation that notes what is unlinked is again a volume; the induction of C87 over the depth of the tree, generalised to a relation between the states before and after; every path that is resolved at all leads to an object that exists (induction on the depth of the resolution).",
 "C106": "Case analysis of main over a model of the host's files; os.Create changes one file and one name.",
 "C107": "Composition of the host model with C08, C03 and C02; the case of the same file by evaluation and in general.",
 "C108": "Composition of the host model with C04 and C08; the round trip composes C107_zip_partial and C108_unzip_partial.",
 "C109": "Sql model: tables as lists, cascade by recursion bounded by the engine's depth limit. The removed rows are shown to be closed under 'child of' and below the chosen rows; success by chains without repetition.",
 "C110": "The triggers of a cascade are a fold over the removed rows; closed form by induction, independent of their order; invariant over all databases such a driver reaches.",
 "C111": "Invariant over histories; deletions by the closed set of removed rows.",
 "C112": "From C111; counterexample of two inserts.",
 "C113": "Streams as an arbitrary state with the io contracts as laws; the callbacks are shown to satisfy the block cache's callback contract, then C09 and C10. Counterexample: one block read in two parts.",
 "C114": "The callbacks satisfy the callback contract; the frame by a relation on the storage preserved by every callback; errors by the strengthened justification of C09 (failing blocks are within the object).",
 "C115": "From the io contracts; histories from C113.",
 "C116": "Case analysis on the method; counterexample: Close on the zero value.",
 "C117": "UTF-8 decoding as in Go's library (Fat8/Names.lean), unicode.ToUpper a parameter; decoding inverts Lean's own UTF-8 encoder; induction over characters.",
 "C118": "Direct: trimming and padding are inverse; counterexample FF/FE.",
 "C119": "Case analysis on what Sys() returns.",
 "C120": "Arithmetic of truncating division; wrap-around as residue.",
 "C121": "Residue arithmetic; composition with C40.",
 "C122": "Each operation is related to itself under two different garbages: a relational safety judgement (SafeAt) with the invariant that files and results hold open handles; induction over fuel, directory contents and the history.",
 "C123": "Judgement Tidy (all handles given out or passed in are closed, but the one the result holds), composed over the monad; induction over fuel, directory contents and the history.",
 "C124": "Simulation: the relation Twin (both streams meet the invariant; equal size, position, flags, contents) is preserved by every call and forces equal answers; induction over the history.",
 "C125": "Frame argument: a relation between states closed under the calls of the implementation that are allowed; invariant of the open files: not open for writing, and no dirty block in the cache; induction over the history.",
 "C126": "As C125, with equality of states.",
 "C127": "Histories (Driver/History.lean) with any number of files; simulation of the stream operations in states with the same contents of the object (Stream/Sim.lean); a frame argument for all other calls (Driver/Isolation.lean), by induction on the history.",
 "C128": "Refutation by a concrete program; the positive part from C127 and the simulation of stream operations.",
 "C129": "The callbacks obey the contract of C09; complaints are related to the log of callback invocations by a simulation (Testing/Lemmas.lean), then induction on the history.",
 "C130": "From C08 (round trip of images, exact errors), and C115 with a proof that the stream over a slice obeys the io contracts.",
 "C131": "Unfolding with lemmas about trimming padded fields, joining 16-bit halves and C75; the specification (Padded, shown, firstChar, Described) does not use the model's functions.",
 "C132": "Inductive specifications of slots, clusters and chains (Slots, Holds, DirHolds); induction on them against the loops.",
 "C133": "Inductive specification LeadsTo; induction on it; facts about Clean and SplitList on names glued with a separator.",
 "C134": "Bit lemmas on BitVec 64; equality of every operation under a change of the mount flags that keeps the write permission, induction on the program.",
 "C135": "A recording wrapper around the version-specific driver, shown transparent; a grammar of the events of each call; induction on the program.",
 "C136": "A recording implementation; frames from one state; the exact result of looking up a name in the root directory; counterexamples by evaluation.",
 "C137": "As C136.",
 "C138": "Sessions over the cache model extended by the arrays it abandoned and the windows handed out; simulation invariant (loaded blocks, clean-unless-unmarked), induction over the session.",
 "C139": "Both loops over two stream models; each is shown to be a sequence of Writes of whole blocks and a rest (induction over the number of blocks), then each kind of destination has an invariant preserved by a Write (written up to here; stuck in the middle; zeros).",
 "C140": "Flush is one WriteAt of three copies; a prefix shorter than one copy leaves copy 2 old, a longer one leaves copy 1 new, and GetFAT accepts only equal copies. Counterexample: a file on which a write stores every other sector.",
 "C141": "Induction over the sectors of the directory for writes that store a prefix, then the info sector and the FAT copies; the prefixes compose to a prefix of the new track.",
 "C142": "Case analysis of the callback; resize_spec; a frame over histories (runOps_frame).",
 "C143": "A ghost map from blocks to known bytes, kept true by every operation (induction over histories); a frame lemma shows that only Flush and Resize write; a crash is a storage whose writes fail from some moment on.",
 "C144": "The set of clean blocks inside the low-water mark, with their stored bytes, is an invariant of every call (induction over histories and over the loops of WriteTo and ReadFrom).",
 "C145": "Loops of WriteTo and ReadFrom over one stream state; termination by the number of blocks left, non-termination by an invariant that every round restores.",
 "C146": "Frame argument: a stream on a new cache has no dirty blocks, and over storage that refuses to be resized no call marks one; writes by the specification of the write path.",
 "C147": "Definitional unfolding of EqualFold on ASCII and the theorems of C48.",
 "C148": "Simulation: each call commutes with `shown`, by the specifications of the read, write, truncate and seek paths; induction on the history.",
 "C149": "Simulation as for C148: each call commutes with `held` (which bytes are stored, which are waiting), by the specifications of Flush and Resize; induction on the history.",
 "C150": "The decoder's output on a beginning is a beginning (idealDec_prefix); the error of the gzip reader is passed on by DecompressRLE8; compressImage_runs gives the exact sequence of writes.",
 "C151": "C151_refuted by a concrete run; exactness from the sequence of runs the grouper yields before the error (collectRuns_fail).",
 "C152": "read_cases gives the three things a Read can do (from C23); induction over the loops of the library functions.",
 "C153": "Driver/Files.lean lifts single calls of the stream to the file methods of the driver's histories (Plays: the machine's answers to a list of methods); Stream/InPlace.lean shows that calls in place do on any storage what they do on one that can only be read, for which the machine lemmas of C148 hold without a reliable WriteBlocks or Resize.",
 "C154": "Which blocks wait to be written is an invariant of every call of the reference machine (Stream/Unsynced.lean: the first `low` bytes are stored, all others wait), by induction over the history; then C148 and C149.",
 "C155": "The machine of C153 with the account of C149 carried along every call (run_held), Close = Sync, C154's invariant, and C81 for ReadFile.",
 "C156": "Simulation: a relation between driver and machine is kept by every call, whether it succeeds or fails (agrees_*), then induction over the sequence of calls.",
 "C157": "By C156 for failing files: what an interrupted call leaves differs only in bytes that the repeated call writes (interrupted_again).",
 "C158": "A failed call leaves the reference machine of C148 as it was, or extended, or with the whole effect of the call (put_cases, truncate_cases); doing the call again on each of these gives the same (put_again, put_grown, truncate_again); then induction over the attempts. WriteTo: induction over the loop with the pieces already given.",
 "C159": "Each operation is followed through its loops: it never adds to the failures left and, if it fails other than with ErrArgumentOutOfRange, uses one (step_spent); operations inside the object do not fail with that error (within_err). Lexicographic induction on the program and the failures left, with step_spec; uniqueness by induction on the run; durability from the clean bits after the last Flush.",
 "C160": "Each stream function is followed through its loops (answerCall_spent), on top of the same fact for the cache (C159); induction over the calls. The retrying program: lexicographic induction on the calls and the failures left, with C158 for the answers."
}